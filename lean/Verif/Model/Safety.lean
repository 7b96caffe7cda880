import Verif.Model.Ptrace
import Verif.Model.Patch
/-
Deciding whether the code may be changed: the stacks of all threads and coroutines.

Models `src/kpatch_patch.c` 61-72 (`is_addr_in_info`), 113-164 (`object_patch_verify_safety_single`),
168-247 (`patch_verify_safety`), 265-306 (`patch_ensure_safety`).
-/
namespace Verif

/-- `ACTION_APPLY_PATCH`, `ACTION_UNAPPLY_PATCH`. `src/include/kpatch_patch.h:15-16`. -/
inductive Direction where
  | apply
  | unapply
  deriving DecidableEq

/-- `is_addr_in_info`, `src/kpatch_patch.c` 61-72.  Addition without wrap-around. -/
def addrInInfo (d : Direction) (addr : Nat) (i : Info) : Bool :=
  match d with
  | .apply => i.daddr ≤ addr && addr < i.daddr + i.dlen
  | .unapply => i.saddr ≤ addr && addr < i.saddr + i.slen

/-- `last = info[i].daddr` or `last = info[i].saddr`. `src/kpatch_patch.c:140-143`. -/
def infoAddr (d : Direction) (i : Info) : Nat :=
  match d with
  | .apply => i.daddr
  | .unapply => i.saddr

/-- The inner loop, `src/kpatch_patch.c` 136-148: the first record of a replaced function containing `ip`. -/
def hitInfo (d : Direction) (infos : List Info) (ip : Nat) : Option Info :=
  infos.find? fun i => !i.isNew && addrInInfo d ip i

/-- `object_patch_verify_safety_single`, `src/kpatch_patch.c` 113-164, with `paranoid = 0` (the value all
callers pass).  The list is what the unwinder reports, innermost frame first; whether it ends because the
stack is complete or because `unw_step` fails makes no difference to the code.  `retip` is the variable
behind the pointer.  Result: the return value and the variable. -/
def verifySingle (d : Direction) (infos : List Info) : Bool → Nat → Nat → List Nat → Nat × Nat
  | _, last, retip, [] => (last, retip)
  | prev, last, retip, ip :: rest =>
    match hitInfo d infos ip with
    | some i => verifySingle d infos true (infoAddr d i) retip rest
    | none => if prev then (last, ip) else verifySingle d infos false last retip rest

/-- One look at the stopped process: the stacks the unwinder reports; `none` = no unwinding context could be
created. `src/kpatch_patch.c:169-250` (patch_verify_safety). -/
structure Look where
  coros : List (Option (List Nat))
  threads : List (Option (List Nat))

/-- The result of `patch_verify_safety`. `src/kpatch_patch.c:169-250` (patch_verify_safety). -/
inductive Verdict where
  /-- returned -1 -/
  | error
  /-- `failed | KPATCH_CORO_STACK_UNSAFE` -/
  | coroUnsafe
  /-- number of unsafe threads -/
  | failed (n : Nat)
  deriving DecidableEq

/-- The coroutine loop, `src/kpatch_patch.c` 178-207.  `none` = `return -1`; otherwise the number of
unsafe coroutines. -/
def verifyCoros (d : Direction) (infos : List Info) : List (Option (List Nat)) → Option Nat
  | [] => some 0
  | none :: _ => none
  | some fs :: cs =>
    match verifyCoros d infos cs with
    | none => none
    | some n => some (if (verifySingle d infos false 0 0 fs).1 ≠ 0 then n + 1 else n)

/-- The thread loop, `src/kpatch_patch.c` 212-244.  `retip` is the local variable, which is not reset
between threads.  Result: number of unsafe threads and the array `retips` (0 for safe threads). -/
def verifyThreads (d : Direction) (infos : List Info) : Nat → List (Option (List Nat)) → Option (Nat × List Nat)
  | _, [] => some (0, [])
  | _, none :: _ => none
  | retip, some fs :: ts =>
    let r := verifySingle d infos false 0 retip fs
    match verifyThreads d infos r.2 ts with
    | none => none
    | some (n, rs) => some (if r.1 ≠ 0 then (n + 1, r.2 :: rs) else (n, 0 :: rs))

/-- `patch_verify_safety`, `src/kpatch_patch.c` 168-247.  `garbage` is the initial value of the
uninitialised variable `retip`.  The number of unsafe threads is assumed to fit the `int` and not to collide
with the flag bit `1 << 20`. -/
def verifySafety (d : Direction) (infos : List Info) (garbage : Nat) (l : Look) : Verdict × List Nat :=
  match verifyCoros d infos l.coros with
  | none => (.error, [])
  | some (_ + 1) => (.coroUnsafe, [])
  | some 0 =>
    match verifyThreads d infos garbage l.threads with
    | none => (.error, [])
    | some (n, rs) => (.failed n, rs)

/-- The outside of `patch_ensure_safety`. `src/kpatch_patch.c:266-310` (patch_ensure_safety). -/
structure SafetyEnv where
  mallocOk : Bool
  garbage : Nat
  /-- the stopped process at the first check -/
  first : Look
  /-- `kpatch_ptrace_execute_until(proc, 3000, 0)` with the given stop addresses -/
  wait : List Nat → Mem → Mem × Bool
  /-- `kpatch_process_attach` after the wait -/
  attachOk : Bool
  /-- the process at the second check -/
  second : Look

/-- `patch_ensure_safety`, `src/kpatch_patch.c` 265-306: effect on the target memory and "returned 0". -/
def ensureSafety (d : Direction) (infos : List Info) (e : SafetyEnv) (m : Mem) : Mem × Bool :=
  if !e.mallocOk then (m, false)
  else
    match verifySafety d infos e.garbage e.first with
    | (.failed 0, _) => (m, true)
    | (.failed (_ + 1), retips) =>
      let w := e.wait retips m
      if !w.2 then (w.1, false)
      else if !e.attachOk then (w.1, false)
      else (w.1, (verifySafety d infos e.garbage e.second).1 == .failed 0)
    | (.error, _) => (m, false)
    | (.coroUnsafe, _) => (m, false)

end Verif
