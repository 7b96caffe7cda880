import Verif.Model.MemIter
/-
Access to the stopped target through ptrace: word-wise writes, temporary breakpoints, remote calls.

Models `src/kpatch_ptrace.c` 59-111 (`kpatch_process_mem_write_ptrace`, `kpatch_process_mem_write`),
240-439 (`kpatch_ptrace_execute_until`) and `kpatch_arch_execute_remote_func` of the four
`src/arch/*/arch_ptrace.c`.
-/
namespace Verif

/-- `PTRACE_POKEDATA`: eight bytes, all or an error.  `access_process_vm` may have stored a prefix
before it failed, `lim` is how far it got.  A word is its eight bytes in memory order (all four targets
are little endian and the tool runs on the same machine, so `memcpy` from a byte buffer into an
`unsigned long` and back keeps the order). The kernel; used at `src/kpatch_ptrace.c:60-92`. -/
def poke (lim : Nat) (m : Mem) (dst : Addr) (word : List Byte) : Mem × Bool := memWrite lim m dst word

/-- The loop of `kpatch_process_mem_write_ptrace`, `src/kpatch_ptrace.c` 67-76, and the rest 78-89.
`lims k` is the kernel's willingness at the k-th request, `plim` at the `PTRACE_PEEKDATA`. -/
def memWritePtrace (lims : Nat → Nat) (plim : Nat) (k : Nat) (m : Mem) (dst : Addr) (bs : List Byte) :
    Mem × Bool :=
  if h : 8 ≤ bs.length then
    let p := poke (lims k) m dst (bs.take 8)
    if !p.2 then (p.1, false)
    else memWritePtrace lims plim (k + 1) p.1 (dst + 8) (bs.drop 8)
  else if bs.length = 0 then (m, true)
  else
    match memRead plim m dst 8 with
    | none => (m, false)
    | some old => poke (lims k) m dst (bs ++ old.drop bs.length)
termination_by bs.length
decreasing_by simp [List.length_drop]; omega

/-- What the kernel does with the `pwrite` of `kpatch_process_mem_write`. `src/kpatch_ptrace.c:95-110`. -/
inductive WriteOutcome where
  /-- fails with `EINVAL` (kernels without write access to `/proc/pid/mem`) -/
  | einval
  /-- fails otherwise, or writes a prefix -/
  | upTo (lim : Nat)

/-- `kpatch_process_mem_write`, `src/kpatch_ptrace.c` 94-111, with the static variable `use_pwrite`.
Result: memory, new value of `use_pwrite`, "returned 0". -/
def memWriteAny (usePwrite : Bool) (o : WriteOutcome) (lims : Nat → Nat) (plim : Nat) (m : Mem) (dst : Addr)
    (bs : List Byte) : Mem × Bool × Bool :=
  if usePwrite then
    match o with
    | .einval =>
      let r := memWritePtrace lims plim 0 m dst bs
      (r.1, false, r.2)
    | .upTo lim =>
      let r := memWrite lim m dst bs
      (r.1, true, r.2)
  else
    let r := memWritePtrace lims plim 0 m dst bs
    (r.1, false, r.2)

/-! ### Breakpoints -/

/-- `BREAK_INSN`, `src/include/kpatch_ptrace.h` 128-134, for riscv64 and for the other three. -/
def breakInsnRiscv : List Byte := [0x73, 0x00, 0x10, 0x00]
/-- `BREAK_INSN` on the architectures other than riscv64. `src/include/kpatch_ptrace.h:132-133`. -/
def breakInsnOther : List Byte := [0xcc]

/-- The kernel during the installation of one breakpoint. `src/kpatch_ptrace.c:241-330`. -/
structure BreakFault where
  rlim : Nat
  wlim : Nat

/-- The installation loop, `src/kpatch_ptrace.c` 267-307.  The last argument lists `execute_until` of the
threads in list order; `bs` are the breakpoints installed so far (address, original code).  Result: memory,
breakpoints, "no `goto poke_back`". -/
def installBreaks (brk : List Byte) (fs : Nat → BreakFault) :
    Mem → List (Nat × List Byte) → List Nat → Mem × List (Nat × List Byte) × Bool
  | m, bs, [] => (m, bs, true)
  | m, bs, u :: us =>
    if u = 0 then installBreaks brk fs m bs us
    else if bs.any (fun b => b.1 == u) then installBreaks brk fs m bs us
    else
      match memRead (fs bs.length).rlim m u brk.length with
      | none => (m, bs, false)
      | some orig =>
        let w := memWrite (fs bs.length).wlim m u brk
        if !w.2 then (w.1, bs, false)
        else installBreaks brk fs w.1 (bs ++ [(u, orig)]) us

/-- The restoring loop, `src/kpatch_ptrace.c` 408-424.  The Boolean is the `ret` of the last write
(`ok` when there is none). -/
def restoreBreaks (lims : Nat → Nat) : Mem → Nat → List (Nat × List Byte) → Bool → Mem × Bool
  | m, _, [], ok => (m, ok)
  | m, n, (u, orig) :: bs, _ =>
    let w := memWrite (lims n) m u orig
    restoreBreaks lims w.1 (n + 1) bs w.2

/-- The outside of `kpatch_ptrace_execute_until`. `src/kpatch_ptrace.c:241-440`. -/
structure UntilEnv where
  callocOk : Bool
  install : Nat → BreakFault
  /-- `sigprocmask` succeeded -/
  sigmaskOk : Bool
  /-- what the running threads do to the memory between the first `PTRACE_CONT` and the moment all of
  them are stopped again: any schedule, any number of events, time-out, failing `PTRACE_CONT`, signals
  and exits only decide which function this is -/
  run : Mem → Mem
  restore : Nat → Nat

/-- `kpatch_ptrace_execute_until`, `src/kpatch_ptrace.c` 240-439: effect on the memory of the target and
"returned 0".  All paths after the installation lead to `poke_back`.  The thread bookkeeping (`running`,
`execute_until`, registers) is in `Verif.Model.Wait`. -/
def executeUntil (brk : List Byte) (e : UntilEnv) (untils : List Nat) (m : Mem) : Mem × Bool :=
  if untils.all (· == 0) then (m, true)
  else if !e.callocOk then (m, false)
  else
    let i := installBreaks brk e.install m [] untils
    let m2 := if i.2.2 && e.sigmaskOk then e.run i.1 else i.1
    restoreBreaks e.restore m2 0 i.2.1 i.2.2

/-! ### Remote calls -/

/-- The outside of `kpatch_arch_execute_remote_func`. `R` is the register file. `src/arch/x86/arch_ptrace.c` (kpatch_arch_execute_remote_func). -/
structure RemoteEnv (R : Type) where
  getRegs1 : Bool
  rlim : Nat
  wlim : Nat
  setRegs1 : Bool
  /-- what the target does between the two stops: its memory and registers; `false` when `func`
  (`wait_for_stop`) failed -/
  func : Mem → R → Mem × R × Bool
  getRegs2 : Bool
  setRegs2 : Bool
  wlim2 : Nat

/-- `kpatch_arch_execute_remote_func`, `src/arch/x86/arch_ptrace.c` 296-372 (aarch64 251-334, riscv64
261-319, loongarch64 265-324 are the same).  `prepare` is `regs.rip = libc_base; copy_regs(&regs, pregs)`.
Result: memory, registers of the thread, the registers returned through `pregs`, "returned 0". -/
def executeRemote {R : Type} (e : RemoteEnv R) (base : Nat) (code : List Byte) (prepare : R → R)
    (m : Mem) (regs : R) : Mem × R × Option R × Bool :=
  if !e.getRegs1 then (m, regs, none, false) else
  match memRead e.rlim m base code.length with
  | none => (m, regs, none, false)
  | some orig =>
    let w := memWrite e.wlim m base code
    if !w.2 then ((memWrite e.wlim2 w.1 base orig).1, regs, none, false) else
    if !e.setRegs1 then ((memWrite e.wlim2 w.1 base orig).1, regs, none, false) else
    let f := e.func w.1 (prepare regs)
    if !f.2.2 then ((memWrite e.wlim2 f.1 base orig).1, f.2.1, none, false) else
    if !e.getRegs2 then ((memWrite e.wlim2 f.1 base orig).1, f.2.1, none, false) else
    if !e.setRegs2 then ((memWrite e.wlim2 f.1 base orig).1, f.2.1, none, false) else
    ((memWrite e.wlim2 f.1 base orig).1, regs, some f.2.1, true)

end Verif
