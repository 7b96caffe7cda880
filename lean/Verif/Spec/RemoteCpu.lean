import Verif.Model.RemoteCall
import Verif.Model.Reloc
/-
The processor and the kernel as seen by a thread that runs the code put into it: system calls, breakpoints and calls
of a register.  Written from the instruction set manuals and the system call conventions, not from /repo.
-/
namespace Verif

inductive CpuOp
  | syscall
  | brk
  | call (r : Nat)
  deriving DecidableEq, Repr

/-- The instructions of the three architectures with 32-bit instructions.
aarch64: `svc #0`, `brk #imm`, `blr xn`; loongarch64: `syscall code`, `break code`, `jirl ra, rj, 0`; riscv64: `ecall`,
`ebreak`, `jalr ra, 0(rs1)`. -/
def decodeWord (isa : Isa) (w : Nat) : Option CpuOp :=
  match isa with
  | .x86 => none
  | .aarch64 =>
    if w = 0xd4000001 then some .syscall
    else if w / 2 ^ 21 = 0xd4200000 / 2 ^ 21 ∧ w % 32 = 0 then some .brk
    else if w / 1024 = 0xd63f0000 / 1024 ∧ w % 32 = 0 then some (.call (w / 32 % 32))
    else none
  | .loongarch =>
    if w / 2 ^ 15 = 0x002b0000 / 2 ^ 15 then some .syscall
    else if w / 2 ^ 15 = 0x002a0000 / 2 ^ 15 then some .brk
    else if w / 1024 = 0x4c000000 / 1024 ∧ w % 32 = 1 then some (.call (w / 32 % 32))
    else none
  | .riscv =>
    if w = 0x73 then some .syscall
    else if w = 0x100073 then some .brk
    else if w / 2 ^ 20 = 0 ∧ w % 2 ^ 15 = 0xe7 then some (.call (w / 2 ^ 15 % 32))
    else none

/-- The instruction that starts with these bytes, and its length. x86: `0f 05` is `syscall`, `cc` is `int3`, `ff d0+r`
is `call *%r`. -/
def decodeInsn (isa : Isa) (bs : List Byte) : Option (CpuOp × Nat) :=
  match isa with
  | .x86 =>
    match bs with
    | b0 :: bs' =>
      if b0 = 0xcc then some (.brk, 1) else
      match bs' with
      | b1 :: _ =>
        if b0 = 0x0f ∧ b1 = 0x05 then some (.syscall, 2)
        else if b0 = 0xff ∧ b1.toNat / 8 = 0xd0 / 8 then some (.call (b1.toNat % 8), 2)
        else none
      | [] => none
    | [] => none
  | isa =>
    match bs with
    | b0 :: b1 :: b2 :: b3 :: _ =>
      (decodeWord isa (b0.toNat + 256 * b1.toNat + 65536 * b2.toNat + 16777216 * b3.toNat)).map fun o => (o, 4)
    | _ => none

/-- Register of the system call number. -/
def sysNrReg : Isa → Nat
  | .x86 => 0
  | .aarch64 => 8
  | .loongarch => 11
  | .riscv => 17

/-- The arguments of a system call. -/
def sysArgs (isa : Isa) (g : Nat → BitVec 64) : SysArgs :=
  match isa with
  | .x86 => ⟨g 7, g 6, g 2, g 10, g 8, g 9⟩
  | .aarch64 => ⟨g 0, g 1, g 2, g 3, g 4, g 5⟩
  | .loongarch => ⟨g 4, g 5, g 6, g 7, g 8, g 9⟩
  | .riscv => ⟨g 10, g 11, g 12, g 13, g 14, g 15⟩

/-- The register of the result of a system call and of a function. -/
def retReg : Isa → Nat
  | .x86 => 0
  | .aarch64 => 0
  | .loongarch => 4
  | .riscv => 10

/-- The numbers of three system calls in the kernel. -/
def mmapNr : Isa → BitVec 64
  | .x86 => 9
  | _ => 222
/-- See `mmapNr`. -/
def mprotectNr : Isa → BitVec 64
  | .x86 => 10
  | _ => 226
/-- See `mmapNr`. -/
def munmapNr : Isa → BitVec 64
  | .x86 => 11
  | _ => 215

/-- The registers of the first two arguments of a function. -/
def argRegs : Isa → List Nat
  | .x86 => [7, 6]
  | .aarch64 => [0, 1]
  | .loongarch => [4, 5]
  | .riscv => [10, 11]

/-- Everything outside the few instructions: what the kernel does in a system call with this number and these
arguments, what the function at an address does from its entry to its return, and the flags. -/
structure CpuWorld where
  sys : BitVec 64 → SysArgs → Mem → Mem × BitVec 64
  fn : Nat → Mem → Cpu → Mem × Cpu
  flags : BitVec 64

/-- `call`: x86 pushes the return address, the others put it into the link register. -/
def enterCall (isa : Isa) (ret : Nat) (m : Mem) (c : Cpu) : Mem × Cpu :=
  match isa with
  | .x86 =>
    let sp := c.g 4 - 8
    ((memWrite 8 m sp.toNat (le64 (BitVec.ofNat 64 ret))).1, c.set 4 sp)
  | .aarch64 => (m, c.set 30 (BitVec.ofNat 64 ret))
  | _ => (m, c.set 1 (BitVec.ofNat 64 ret))

/-- One instruction; `none` at a breakpoint (or at an instruction that is not one of these). -/
def cpuStep (isa : Isa) (w : CpuWorld) (s : Mem × Cpu) : Option (Mem × Cpu) :=
  match decodeInsn isa (pread 4 s.1 s.2.pc 4) with
  | some (.syscall, n) =>
    let r := w.sys (s.2.g (sysNrReg isa)) (sysArgs isa s.2.g) s.1
    let c := s.2.set (retReg isa) r.2
    let c := match isa with
      | .x86 => (c.set 1 (BitVec.ofNat 64 (s.2.pc + n))).set 11 w.flags
      | _ => c
    some (r.1, { c with pc := s.2.pc + n })
  | some (.call r, n) =>
    let e := enterCall isa (s.2.pc + n) s.1 s.2
    let f := w.fn (s.2.g r).toNat e.1 e.2
    some (f.1, { f.2 with pc := s.2.pc + n })
  | _ => none

/-- At most `n` instructions; the Boolean says that a breakpoint was reached. -/
def cpuSteps (isa : Isa) (w : CpuWorld) : Nat → Mem × Cpu → (Mem × Cpu) × Bool
  | 0, s => (s, false)
  | n + 1, s =>
    match cpuStep isa w s with
    | none => (s, true)
    | some s' => cpuSteps isa w n s'

/-- The stops of a resumed thread.  `sched` lists the signals that reach it from outside, each with the number of
instructions the thread executes before; a breakpoint stops it with `SIGTRAP` (5).  A signal that is passed on is
handled and the handler returns to the interrupted place with all registers restored. -/
def threadStops (isa : Isa) (w : CpuWorld) : List (Nat × Nat) → Mem × Cpu → List (WaitEv × (Mem × Cpu))
  | [], s => [(if (cpuSteps isa w 3 s).2 then .stopped 5 else .gone, (cpuSteps isa w 3 s).1)]
  | (n, sig) :: sched, s =>
    let r := cpuSteps isa w n s
    if r.2 then [(.stopped 5, r.1)] else (.stopped sig, r.1) :: threadStops isa w sched r.1

/-- What happens to the thread while `wait_for_stop` waits. -/
def remoteRun (isa : Isa) (w : CpuWorld) (sched : List (Nat × Nat)) (m : Mem) (c : Cpu) : Mem × Cpu × Bool :=
  let evs := threadStops isa w sched (m, c)
  match waitForStop (evs.map fun e => some e.1) with
  | none => (m, c, false)
  | some k =>
    match evs[k]? with
    | none => (m, c, false)
    | some e => (e.2.1, e.2.2, true)

/-- The kernel's convention for errors: results from -4095 to -1. -/
def kernelError (res : BitVec 64) : Prop := -4095 ≤ res.toInt ∧ res.toInt ≤ -1

end Verif
