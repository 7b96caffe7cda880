/-
Attaching to all threads of a process.  Models `src/kpatch_process.c` 655-740 (`process_list_threads`,
`process_has_thread_pid`) and 742-819 (`kpatch_process_attach`).
-/
namespace Verif

/-- The outside of `kpatch_process_attach`. `src/kpatch_process.c:743-819` (kpatch_process_attach). -/
structure AttachEnv where
  /-- `/proc/pid/mem` could be opened -/
  memOk : Bool
  /-- the entries of `/proc/pid/task` at the k-th scan, in directory order; `none` = the scan failed -/
  scan : Nat → Option (List Nat)
  /-- `kpatch_ptrace_attach_thread` succeeded for the thread at the k-th attempt: the thread is stopped -/
  attach : Nat → Nat → Bool
  /-- `proc->is_just_started && proc->send_fd == -1` -/
  justStarted : Bool
  /-- the libunwind address space exists or could be created -/
  unwindOk : Bool

/-- The inner loop, `src/kpatch_process.c` 776-788: attach to the listed threads that are not yet attached
(`list_add` appends to the list of contexts).  `none` = `goto detach`. -/
def attachNew (ok : Nat → Bool) : List Nat → List Nat → Option (List Nat)
  | attached, [] => some attached
  | attached, p :: ps =>
    if attached.contains p then attachNew ok attached ps
    else if ok p then attachNew ok (attached ++ [p]) ps
    else none

/-- The outer loop, `src/kpatch_process.c` 751-791, `left` attempts to go.  Result: the attached threads and
the last scan; `none` = all threads were detached again (or, for a just started process with several
threads, the call failed). -/
def attachLoop (e : AttachEnv) : Nat → Nat → Nat → List Nat → Option (List Nat × List Nat)
  | 0, _, _, _ => none
  | left + 1, n, prevnpids, attached =>
    match e.scan n with
    | none => none
    | some pids =>
      if n ≠ 0 ∧ prevnpids = pids.length then some (attached, pids)
      else if e.justStarted && pids.length > 1 then none
      else
        match attachNew (e.attach n) attached (pids.drop prevnpids) with
        | none => none
        | some attached' => attachLoop e left (n + 1) pids.length attached'

/-- `kpatch_process_attach`, `src/kpatch_process.c` 742-819.  `attached` are the threads attached by an
earlier call (`patch_ensure_safety` calls it again).  `some` = returned 0. -/
def processAttach (e : AttachEnv) (attached : List Nat) : Option (List Nat × List Nat) :=
  if !e.memOk then none
  else
    match attachLoop e 3 0 0 attached with
    | none => none
    | some r => if e.unwindOk then some r else none

end Verif
