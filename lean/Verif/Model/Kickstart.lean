import Verif.Model.Isa
/-
A program that is started through the `execve` wrapper (`tests/execve/execve.c`): the wrapper announces the thread and waits for
a message, stops at a breakpoint, and then calls `execve`.  Models `kpatch_arch_ptrace_kickstart_execve_wrapper`:
`src/arch/x86/arch_ptrace.c` 43-138, `src/arch/aarch64/arch_ptrace.c` 46-141, `src/arch/riscv64/arch_ptrace.c` 64-157,
`src/arch/loongarch64/arch_ptrace.c` 65-158.
-/
namespace Verif

/-- A stop at which `wait_for_stop` returns 0: the program counter and what `PTRACE_PEEKTEXT` gives at an address, `none` for an
error.  Reading the program counter is taken not to fail.  `src/kpatch_ptrace.c:442-474` (wait_for_stop),
`src/arch/x86/arch_ptrace.c:85-93`. -/
structure KStop where
  pc : BitVec 64
  peek : BitVec 64 → Option (BitVec 64)

/-- What the code makes of a stop: it returns an error, waits for the next one, or takes it for the breakpoint.
`src/arch/x86/arch_ptrace.c:85-97`. -/
inductive BrkRes
  | error | no | yes
  deriving DecidableEq, Repr

/-- `BREAK_INSN` read as an `unsigned`, `src/include/kpatch_ptrace.h` 128-134, on riscv64 and loongarch64.  On loongarch64 the
array has one byte, and three bytes of `junk` behind it are read, too.  `src/arch/riscv64/arch_ptrace.c:114`,
`src/arch/loongarch64/arch_ptrace.c:115`. -/
def breakWord (isa : Isa) (junk : BitVec 24) : BitVec 32 :=
  match isa with
  | .riscv => 0x00100073#32
  | _ => junk ++ 0xcc#8

/-- The test for the breakpoint.  On x86 and aarch64 (`src/arch/x86/arch_ptrace.c` 85-97, `src/arch/aarch64/arch_ptrace.c` 88-100) a
value of -1 is taken for an error.  On riscv64 and loongarch64 (`src/arch/riscv64/arch_ptrace.c` 107-115,
`src/arch/loongarch64/arch_ptrace.c` 108-116) `errno` is looked at, too, which is taken to be 0 after a success. -/
def brkCheck (isa : Isa) (junk : BitVec 24) (s : KStop) : BrkRes :=
  match isa with
  | .x86 | .aarch64 =>
    if s.pc = -1#64 then .error
    else
      match s.peek (s.pc - 1) with
      | none => .error
      | some w => if w = -1#64 then .error else if w.setWidth 8 = 0xcc#8 then .yes else .no
  | .riscv | .loongarch =>
    match s.peek s.pc with
    | none => .error
    | some w => if w.setWidth 32 = breakWord isa junk then .yes else .no

/-- How the loop ends that waits for the breakpoint. `src/arch/x86/arch_ptrace.c:78-97`. -/
inductive BrkWait
  | waiting
  | failed
  | seen (left : List (Option KStop))

/-- The loop that waits for the breakpoint, on the results of `wait_for_stop`, `none` for -1; no more results: it goes on waiting.
`src/arch/x86/arch_ptrace.c:77-97`, `src/arch/aarch64/arch_ptrace.c:80-100`, `src/arch/riscv64/arch_ptrace.c:99-116`,
`src/arch/loongarch64/arch_ptrace.c:100-117`. -/
def waitBrk (isa : Isa) (junk : BitVec 24) : List (Option KStop) → BrkWait
  | [] => .waiting
  | none :: _ => .failed
  | some s :: es =>
    match brkCheck isa junk s with
    | .error => .failed
    | .no => waitBrk isa junk es
    | .yes => .seen es

/-- How the whole function ends: not while the stops last, with an error, or with 0; then `proc->pid`, the threads that stay
attached, the threads that were detached, and the stops that have not been waited for. `src/arch/x86/arch_ptrace.c:44-138`. -/
inductive KickRes
  | waiting
  | failed
  | ok (pid : Nat) (attached detached : List Nat) (left : List (Option KStop))

/-- `kpatch_arch_ptrace_kickstart_execve_wrapper`: `threads` are the attached threads in the order of the list, `pid` the
announced thread, `sent`: the message was sent, `tgid`: what `get_threadgroup_id` gives, `memOk`: `/proc/<pid>/mem` could be
opened again.  `proc2pctx` is the first thread of the list.  `src/arch/x86/arch_ptrace.c:44-138`,
`src/arch/aarch64/arch_ptrace.c:47-141`, `src/arch/riscv64/arch_ptrace.c:65-157`, `src/arch/loongarch64/arch_ptrace.c:66-158`. -/
def kickstart (isa : Isa) (junk : BitVec 24) (threads : List Nat) (pid : Nat) (sent : Bool) (tgid : Option Nat) (memOk : Nat → Bool)
    (stops : List (Option KStop)) : KickRes :=
  if pid ∉ threads then .failed
  else if !sent then .failed
  else
    match waitBrk isa junk stops with
    | .waiting => .waiting
    | .failed => .failed
    | .seen es =>
      match (if threads.head? = some pid then some pid else tgid) with
      | none => .failed
      | some p =>
        match es with
        | [] => .waiting
        | none :: _ => .failed
        | some _ :: es =>
          if memOk p then .ok p (threads.filter (· = p)) (threads.filter (· ≠ p)) es else .failed

end Verif
