import Verif.Model.Mem
import Verif.Model.Reloc
/-
Finding the coroutines of a stopped process and reading their registers.

Models `src/kpatch_coro.c` 123-330, `src/include/kpatch_coro.h` and `_UCORO_access_reg` of
`src/arch/*/arch_coro.c`.  Addresses are natural numbers; the
buffered reader used in the heap scan is replaced by direct reads (see `Verif.Model.MemIter` for it).
-/
namespace Verif

/-- `PTR_DEMANGLE(ptr, key)`, `src/include/kpatch_coro.h` 33, on `unsigned long`. -/
def ptrDemangle (ptr key : BitVec 64) : BitVec 64 := ((ptr >>> 0x11) ||| (ptr <<< 47)) ^^^ key

/-- `sizeof(sigjmp_buf)` of glibc on x86-64. `src/include/kpatch_coro.h:16`; read at `src/kpatch_coro.c:198-199`. -/
def envSize : Nat := 200

/-- `struct kpatch_coro`, `src/include/kpatch_coro.h` 14-17: the eight words of `env[0].__jmpbuf`. -/
structure Coro where
  regs : List (BitVec 64)
  deriving DecidableEq, Repr

/-- Word `i` of the buffer read from the target. `src/kpatch_coro.c:205-208`. -/
def envWord (env : List Byte) (i : Nat) : BitVec 64 := ld64 (env.drop (8 * i))

/-- The `regs[JB_*]` of `src/kpatch_coro.c` 205-208 and 309-312: RBP (1), RSP (6) and RIP (7) are
demangled in place. -/
def demangleRegs (env : List Byte) (guard : BitVec 64) : Coro :=
  ⟨[envWord env 0, ptrDemangle (envWord env 1) guard, envWord env 2, envWord env 3, envWord env 4,
    envWord env 5, ptrDemangle (envWord env 6) guard, ptrDemangle (envWord env 7) guard]⟩

/-- The `while (coroutine)` loop of `qemu_cloudlinux_find_coroutines`, `src/kpatch_coro.c` 292-327: the
coroutines in the order found (`list_add` appends), `none` when it returns -1.  `lim` bounds what the kernel
delivers per read.  The C loop does not end on a circular list; here `fuel` counts the rounds and running
out of it is `none`. -/
def listedCoros (lim : Nat) (m : Mem) (envOff nextOff : Nat) (guard : BitVec 64) :
    Nat → Nat → Option (List Coro)
  | 0, _ => none
  | fuel + 1, cur =>
    if cur = 0 then some []
    else
      match memRead lim m (cur + envOff) envSize with
      | none => none
      | some env =>
        match memRead lim m (cur + nextOff) 8 with
        | none => none
        | some nx =>
          (listedCoros lim m envOff nextOff guard fuel (ld64 nx).toNat).map (demangleRegs env guard :: ·)

/-- `PEEK_ULONG(p)`, `src/include/kpatch_ptrace.h` 48-57; failure makes the caller return -1. -/
def peekUlong (lim : Nat) (m : Mem) (a : Nat) : Option (BitVec 64) := (memRead lim m a 8).map ld64

/-- One page of the scan, `src/kpatch_coro.c` 173-208: `none` on a failing read, `some none` when the page
does not end a coroutine's stack.  `ptr` is the end of the page, at least 64. -/
def scanPage (lim : Nat) (m : Mem) (startCtx guard : BitVec 64) (ptr : Nat) : Option (Option Coro) :=
  match peekUlong lim m (ptr - 3 * 8) with
  | none => none
  | some v =>
    if v ≠ startCtx then some none
    else
      match peekUlong lim m (ptr - 4 * 8) with
      | none => none
      | some v =>
        if v ≠ BitVec.ofNat 64 (ptr - 2 * 8) then some none
        else
          match peekUlong lim m (ptr - 8 * 8) with
          | none => none
          | some v =>
            match peekUlong lim m (ptr - 7 * 8) with
            | none => none
            | some v2 =>
              if v ≠ v2 then some none
              else
                match memRead lim m (v.toNat + 0x38) envSize with
                | none => none
                | some env => some (some (demangleRegs env guard))

/-- The loop over the pages of the heap, `src/kpatch_coro.c` 173-209; `n` pages from `cur` on. -/
def heapCoros (lim : Nat) (m : Mem) (startCtx guard : BitVec 64) (page : Nat) :
    Nat → Nat → Option (List Coro)
  | 0, _ => some []
  | n + 1, cur =>
    match scanPage lim m startCtx guard (cur + page) with
    | none => none
    | some none => heapCoros lim m startCtx guard page n (cur + page)
    | some (some c) => (heapCoros lim m startCtx guard page n (cur + page)).map (c :: ·)

/-- The registers the unwinder asks for on x86-64. `src/arch/x86/arch_coro.c:118-132`. -/
inductive XReg where
  | rbx | rbp | r12 | r13 | r14 | r15 | rsp | rip
  deriving DecidableEq, Repr

/-- `_UCORO_access_reg` for reading, `src/arch/x86/arch_coro.c` 108-134 (other registers are read from the
thread).  `UNW_X86_64_R12`..`R15` are consecutive. -/
def coroReg (c : Coro) : XReg → Option (BitVec 64)
  | .rbx => c.regs[0]?
  | .rbp => c.regs[1]?
  | .r12 => c.regs[0 + 2]?
  | .r13 => c.regs[1 + 2]?
  | .r14 => c.regs[2 + 2]?
  | .r15 => c.regs[3 + 2]?
  | .rsp => c.regs[6]?
  | .rip => c.regs[7]?

/-- The registers of aarch64 that the tool takes from the jump buffer. `src/arch/aarch64/arch_coro.c:111-125`. -/
inductive AReg where
  | x9 | x12 | x13 | x14 | x15 | x29 | sp | pc
  deriving DecidableEq, Repr

/-- `_UCORO_access_reg` for reading, `src/arch/aarch64/arch_coro.c` 101-127. -/
def coroRegA64 (c : Coro) : AReg → Option (BitVec 64)
  | .x9 => c.regs[0]?
  | .x29 => c.regs[1]?
  | .x12 => c.regs[0 + 2]?
  | .x13 => c.regs[1 + 2]?
  | .x14 => c.regs[2 + 2]?
  | .x15 => c.regs[3 + 2]?
  | .sp => c.regs[6]?
  | .pc => c.regs[7]?

/-- The first 14 words of the buffer as `src/kpatch_coro.c` 205-208 and 309-312 leave them, also on RISC-V and LoongArch: words 1, 6 and 7
demangled.  There `get_ptr_guard` (`src/arch/riscv64/arch_coro.c` 78-85, `src/arch/loongarch64/arch_coro.c` 79-86) does not set the
guard, so that it is whatever was in the variable. -/
def demangleRegs14 (env : List Byte) (guard : BitVec 64) : Coro :=
  ⟨(List.range 14).map fun i => if i = 1 ∨ i = 6 ∨ i = 7 then ptrDemangle (envWord env i) guard else envWord env i⟩

/-- A register of RISC-V or LoongArch: the program counter or a numbered one. `src/arch/riscv64/arch_coro.c:98-108`. -/
inductive NReg where
  | pc
  | x (n : Nat)
  deriving DecidableEq, Repr

/-- `_UCORO_access_reg` for reading, `src/arch/riscv64/arch_coro.c` 87-112; `none`: read from the thread. -/
def coroRegRv (c : Coro) : NReg → Option (BitVec 64)
  | .pc => c.regs[0]?
  | .x n =>
    if n = 8 then c.regs[1]?
    else if n = 9 then c.regs[2]?
    else if 18 ≤ n ∧ n ≤ 27 then c.regs[3 + n - 18]?
    else if n = 2 then c.regs[13]?
    else none

/-- `_UCORO_access_reg` for reading, `src/arch/loongarch64/arch_coro.c` 88-113; `none`: read from the thread. -/
def coroRegLoong (c : Coro) : NReg → Option (BitVec 64)
  | .pc => c.regs[0]?
  | .x n =>
    if n = 23 then c.regs[1]?
    else if n = 24 then c.regs[2]?
    else if 25 ≤ n ∧ n ≤ 31 then c.regs[3 + n - 25]?
    else if n = 3 then c.regs[13]?
    else none

end Verif
