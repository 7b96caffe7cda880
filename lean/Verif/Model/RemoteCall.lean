import Verif.Model.Isa
import Verif.Model.Ptrace
import Verif.Model.Bytes
/-
Remote system calls and remote calls of ifunc resolvers: `src/kpatch_ptrace.c` 440-473 (`wait_for_stop`), 517-581
(`kpatch_mmap_remote`, `kpatch_mprotect_remote`, `kpatch_munmap_remote`) and, for each architecture, the functions
`kpatch_arch_syscall_remote`, `kpatch_arch_ptrace_resolve_ifunc` and `copy_regs` of `src/arch/*/arch_ptrace.c`.
The processor that executes the few instructions put into the target is in `Verif.Spec.RemoteCpu`.
-/
namespace Verif

/-- `struct user_regs_struct`: the general registers by their hardware number (x86: rax 0, rcx 1, rdx 2, rbx 3, rsp 4,
rbp 5, rsi 6, rdi 7, r8 8 ... r15 15; riscv64: a0 is x10; loongarch64: `REG_A0` is 4, `src/arch/loongarch64/arch_ptrace.c`
27-34) and the program counter.  Flags and segment registers are not modelled: the code copies and restores them as
part of the structure. A structure of the C library, used for example at `src/arch/x86/arch_ptrace.c:203`. -/
structure Cpu where
  g : Nat → BitVec 64
  pc : Nat

/-- An assignment to one register of the structure, for example `src/arch/x86/arch_ptrace.c:211-225`. -/
def Cpu.set (c : Cpu) (r : Nat) (v : BitVec 64) : Cpu := { c with g := fun x => if x = r then v else c.g x }

/-- `copy_regs`: the registers it copies. `src/arch/x86/arch_ptrace.c` 374-394, `src/arch/aarch64/arch_ptrace.c`
336-362, `src/arch/loongarch64/arch_ptrace.c` 326-338, `src/arch/riscv64/arch_ptrace.c` 321-333. -/
def copiedRegs : Isa → List Nat
  | .x86 => [15, 14, 13, 12, 5, 3, 11, 10, 9, 8, 0, 1, 2, 6, 7]
  | .aarch64 => [0, 1, 2, 3, 4, 5, 8, 29, 9, 10, 11, 12, 13, 14, 15, 16, 17, 18, 19, 20]
  | .loongarch => [4, 5, 6, 7, 8, 9, 10, 11]
  | .riscv => [10, 11, 12, 13, 14, 15, 16, 17]

/-- `regs = orig_regs; regs.rip = libc_base; copy_regs(&regs, pregs)`, `src/arch/x86/arch_ptrace.c` 334-337 (aarch64
296-299, loongarch64 296-298, riscv64 292-294). -/
def prepareRegs (isa : Isa) (base : Nat) (pregs : Nat → BitVec 64) (c : Cpu) : Cpu :=
  ⟨fun r => if r ∈ copiedRegs isa then pregs r else c.g r, base⟩

/-- The code of `kpatch_arch_syscall_remote`: `src/arch/x86/arch_ptrace.c` 205-208, `src/arch/aarch64/arch_ptrace.c`
207-210, `src/arch/loongarch64/arch_ptrace.c` 219-222, `src/arch/riscv64/arch_ptrace.c` 218-221. -/
def syscallCode : Isa → List Byte
  | .x86 => [0x0f, 0x05, 0xcc]
  | .aarch64 => [0x01, 0x00, 0x00, 0xd4, 0xa0, 0x00, 0x20, 0xd4]
  | .loongarch => [0x00, 0x00, 0x2b, 0x00, 0x00, 0x00, 0x2a, 0x00]
  | .riscv => [0x73, 0x00, 0x00, 0x00, 0x73, 0x00, 0x10, 0x00]

/-- The six arguments of a system call. `src/kpatch_ptrace.c:531`, `src/kpatch_ptrace.c:552`, `src/kpatch_ptrace.c:572`. -/
structure SysArgs where
  a1 : BitVec 64
  a2 : BitVec 64
  a3 : BitVec 64
  a4 : BitVec 64
  a5 : BitVec 64
  a6 : BitVec 64
  deriving DecidableEq

/-- The registers filled by `kpatch_arch_syscall_remote`: `src/arch/x86/arch_ptrace.c` 211-219 (the rest is cleared),
`src/arch/aarch64/arch_ptrace.c` 214-220 and `src/arch/riscv64/arch_ptrace.c` 225-231 (the rest is not initialised:
`junk`), `src/arch/loongarch64/arch_ptrace.c` 226-233 (cleared). -/
def syscallRegs (isa : Isa) (junk : Nat → BitVec 64) (nr : BitVec 64) (a : SysArgs) : Nat → BitVec 64 :=
  match isa with
  | .x86 => fun r =>
    if r = 0 then nr else if r = 7 then a.a1 else if r = 6 then a.a2 else if r = 2 then a.a3
    else if r = 10 then a.a4 else if r = 8 then a.a5 else if r = 9 then a.a6 else 0
  | .aarch64 => fun r =>
    if r = 8 then nr else if r = 0 then a.a1 else if r = 1 then a.a2 else if r = 2 then a.a3
    else if r = 3 then a.a4 else if r = 4 then a.a5 else if r = 5 then a.a6 else junk r
  | .loongarch => fun r =>
    if r = 11 then nr else if r = 4 then a.a1 else if r = 5 then a.a2 else if r = 6 then a.a3
    else if r = 7 then a.a4 else if r = 8 then a.a5 else if r = 9 then a.a6 else 0
  | .riscv => fun r =>
    if r = 17 then nr else if r = 10 then a.a1 else if r = 11 then a.a2 else if r = 12 then a.a3
    else if r = 13 then a.a4 else if r = 14 then a.a5 else if r = 15 then a.a6 else junk r

/-- The register from which the result is taken: `src/arch/x86/arch_ptrace.c` 223, `src/arch/aarch64/arch_ptrace.c`
224, `src/arch/loongarch64/arch_ptrace.c` 237, `src/arch/riscv64/arch_ptrace.c` 235. -/
def resultReg : Isa → Nat
  | .x86 => 0
  | .aarch64 => 0
  | .loongarch => 4
  | .riscv => 10

/-- `kpatch_arch_syscall_remote`, `src/arch/x86/arch_ptrace.c` 198-226, `src/arch/aarch64/arch_ptrace.c` 201-227,
`src/arch/loongarch64/arch_ptrace.c` 213-241, `src/arch/riscv64/arch_ptrace.c` 212-238: the memory, the registers of the
thread and, when it returned 0, `*res`. -/
def syscallRemote (isa : Isa) (e : RemoteEnv Cpu) (junk : Nat → BitVec 64) (base : Nat) (nr : BitVec 64) (a : SysArgs)
    (m : Mem) (c : Cpu) : Mem × Cpu × Option (BitVec 64) :=
  let r := executeRemote e base (syscallCode isa) (prepareRegs isa base (syscallRegs isa junk nr a)) m c
  (r.1, r.2.1, if r.2.2.2 then r.2.2.1.map (fun c' => c'.g (resultReg isa)) else none)

/-- `__NR_mmap`, `__NR_mprotect`, `__NR_munmap` of the kernel's `unistd.h`. Used at `src/kpatch_ptrace.c:531`. -/
def nrMmap : Isa → BitVec 64
  | .x86 => 9
  | _ => 222
/-- `__NR_mprotect` of the kernel. Used at `src/kpatch_ptrace.c:552`. -/
def nrMprotect : Isa → BitVec 64
  | .x86 => 10
  | _ => 226
/-- `__NR_munmap` of the kernel. Used at `src/kpatch_ptrace.c:572`. -/
def nrMunmap : Isa → BitVec 64
  | .x86 => 11
  | _ => 215

/-- `ret == 0 && res >= (unsigned long)-MAX_ERRNO`, `src/kpatch_ptrace.c` 534, 556, 576; `MAX_ERRNO` is 4095,
`src/include/kpatch_ptrace.h` 108. -/
def isErrno (res : BitVec 64) : Bool := decide (res.toNat ≥ 2 ^ 64 - 4095)

/-- `kpatch_mmap_remote`, `src/kpatch_ptrace.c` 516-539: the return value, 0 on failure. -/
def mmapRemote (isa : Isa) (e : RemoteEnv Cpu) (junk : Nat → BitVec 64) (base : Nat) (a : SysArgs)
    (m : Mem) (c : Cpu) : Mem × Cpu × BitVec 64 :=
  let r := syscallRemote isa e junk base (nrMmap isa) a m c
  (r.1, r.2.1, match r.2.2 with
    | none => 0
    | some res => if isErrno res then 0 else res)

/-- `kpatch_mprotect_remote`, `src/kpatch_ptrace.c` 541-562: "returned 0". -/
def mprotectRemote (isa : Isa) (e : RemoteEnv Cpu) (junk : Nat → BitVec 64) (base : Nat) (addr len prot : BitVec 64)
    (m : Mem) (c : Cpu) : Mem × Cpu × Bool :=
  let r := syscallRemote isa e junk base (nrMprotect isa) ⟨addr, len, prot, 0, 0, 0⟩ m c
  (r.1, r.2.1, match r.2.2 with
    | none => false
    | some res => !isErrno res)

/-- `kpatch_munmap_remote`, `src/kpatch_ptrace.c` 564-582: "returned 0". -/
def munmapRemote (isa : Isa) (e : RemoteEnv Cpu) (junk : Nat → BitVec 64) (base : Nat) (addr len : BitVec 64)
    (m : Mem) (c : Cpu) : Mem × Cpu × Bool :=
  let r := syscallRemote isa e junk base (nrMunmap isa) ⟨addr, len, 0, 0, 0, 0⟩ m c
  (r.1, r.2.1, match r.2.2 with
    | none => false
    | some res => !isErrno res)

/-- The code of `kpatch_arch_ptrace_resolve_ifunc`: `src/arch/x86/arch_ptrace.c` 279-282,
`src/arch/aarch64/arch_ptrace.c` 233-236, `src/arch/loongarch64/arch_ptrace.c` 247-250, `src/arch/riscv64/arch_ptrace.c`
244-247. -/
def callCode : Isa → List Byte
  | .x86 => [0xff, 0xd0, 0xcc]
  | .aarch64 => [0x00, 0x01, 0x3f, 0xd6, 0xa0, 0x00, 0x20, 0xd4]
  | .loongarch => [0x81, 0x00, 0x00, 0x4c, 0x00, 0x00, 0x2a, 0x00]
  | .riscv => [0xe7, 0x00, 0x05, 0x00, 0x73, 0x00, 0x10, 0x00]

/-- The register that gets the address of the resolver: `src/arch/x86/arch_ptrace.c` 287,
`src/arch/aarch64/arch_ptrace.c` 241, `src/arch/loongarch64/arch_ptrace.c` 255, `src/arch/riscv64/arch_ptrace.c` 251. -/
def callReg : Isa → Nat
  | .x86 => 0
  | .aarch64 => 8
  | .loongarch => 4
  | .riscv => 10

/-- The registers filled by `kpatch_arch_ptrace_resolve_ifunc`: cleared, except on riscv64 where they are not
initialised. `src/arch/x86/arch_ptrace.c:203-211`, `src/arch/aarch64/arch_ptrace.c:232-240`, `src/arch/riscv64/arch_ptrace.c:243`, `src/arch/loongarch64/arch_ptrace.c:246`. -/
def callRegs (isa : Isa) (junk : Nat → BitVec 64) (addr : BitVec 64) : Nat → BitVec 64 := fun r =>
  if r = callReg isa then addr else match isa with
    | .riscv => junk r
    | _ => 0

/-- `kpatch_arch_ptrace_resolve_ifunc`, `src/arch/x86/arch_ptrace.c` 275-294, `src/arch/aarch64/arch_ptrace.c` 229-248,
`src/arch/loongarch64/arch_ptrace.c` 243-262, `src/arch/riscv64/arch_ptrace.c` 240-258: the memory, the registers of the
thread and, when it returned 0, the new `*addr`. -/
def resolveIfunc (isa : Isa) (e : RemoteEnv Cpu) (junk : Nat → BitVec 64) (base : Nat) (addr : BitVec 64)
    (m : Mem) (c : Cpu) : Mem × Cpu × Option (BitVec 64) :=
  let r := executeRemote e base (callCode isa) (prepareRegs isa base (callRegs isa junk addr)) m c
  (r.1, r.2.1, if r.2.2.2 then r.2.2.1.map (fun c' => c'.g (resultReg isa)) else none)

/-- What one `waitpid` of `wait_for_stop` reports: stopped by a signal, or not stopped. `src/kpatch_ptrace.c:442-474` (wait_for_stop). -/
inductive WaitEv
  | stopped (sig : Nat)
  | gone
  deriving DecidableEq

/-- `wait_for_stop`, `src/kpatch_ptrace.c` 440-473: `evs` are the results of `waitpid`, `none` when `PTRACE_CONT` or
`waitpid` failed.  `SIGSTOP` is 19 and `SIGTRAP` 5; every other signal is passed on to the thread, which continues.  The
result is the number of resumptions before the stop that ends the loop; a thread that is gone makes the next
`PTRACE_CONT` fail, which is the next element of `evs`. -/
def waitForStop : List (Option WaitEv) → Option Nat
  | [] => none
  | none :: _ => none
  | some (.stopped sig) :: evs => if sig = 19 ∨ sig = 5 then some 0 else (waitForStop evs).map (· + 1)
  | some .gone :: evs => (waitForStop evs).map (· + 1)

end Verif
