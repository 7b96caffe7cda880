import Verif.Model.Coro
import Verif.Spec.Memory
/-
Specification: what the C library stores when a coroutine is switched away from.
-/
namespace Verif

/-- The registers a coroutine continues with (x86-64, callee-saved). -/
structure XRegs where
  rbx : BitVec 64
  rbp : BitVec 64
  r12 : BitVec 64
  r13 : BitVec 64
  r14 : BitVec 64
  r15 : BitVec 64
  rsp : BitVec 64
  rip : BitVec 64
  deriving DecidableEq, Repr

/-- glibc's `PTR_MANGLE` on x86-64 (`sysdeps/unix/sysv/linux/x86_64/sysdep.h`): xor with the pointer guard,
then rotate left by 17 bits. -/
def ptrMangle (g x : BitVec 64) : BitVec 64 := (x ^^^ g).rotateLeft 17

/-- `__jmpbuf` as `__sigsetjmp` fills it on x86-64: rbx, rbp, r12-r15, rsp, rip; rbp, rsp and rip are
mangled. -/
def setjmpWords (g : BitVec 64) (r : XRegs) : List (BitVec 64) :=
  [r.rbx, ptrMangle g r.rbp, r.r12, r.r13, r.r14, r.r15, ptrMangle g r.rsp, ptrMangle g r.rip]

/-- The value of a register. -/
def XRegs.get (r : XRegs) : XReg → BitVec 64
  | .rbx => r.rbx | .rbp => r.rbp | .r12 => r.r12 | .r13 => r.r13
  | .r14 => r.r14 | .r15 => r.r15 | .rsp => r.rsp | .rip => r.rip

/-- Words in memory, little-endian. -/
def wordBytes (ws : List (BitVec 64)) : List Byte := ws.flatMap le64

/-- At address `a` there is a jump buffer in which `r` was saved. -/
def SavedAt (m : Mem) (g : BitVec 64) (a : Nat) (r : XRegs) : Prop :=
  Holds m a (wordBytes (setjmpWords g r)) ∧ Mapped m a envSize

/-- A linked list of coroutines in memory starting at `head`: each has its jump buffer at `envOff` and the
address of the next one (0 at the end) at `nextOff`. -/
def CoroList (m : Mem) (g : BitVec 64) (envOff nextOff : Nat) : Nat → List XRegs → Prop
  | head, [] => head = 0
  | head, r :: rs => head ≠ 0 ∧ SavedAt m g (head + envOff) r ∧
      ∃ next, next < 2 ^ 64 ∧ Holds m (head + nextOff) (le64 (BitVec.ofNat 64 next)) ∧
        CoroList m g envOff nextOff next rs

/-- The word at an address. -/
def WordAt (m : Mem) (a : Nat) (w : BitVec 64) : Prop := Holds m a (le64 w)

/-- The page ending at `ptr` ends the stack of a coroutine made by `makecontext`: the return address
`__start_context`, the pointer to `uc_link` and two copies of the address `c` of the coroutine, whose
jump buffer holds `r`. -/
def CoroStack (m : Mem) (startCtx g : BitVec 64) (ptr : Nat) (c : BitVec 64) (r : XRegs) : Prop :=
  WordAt m (ptr - 24) startCtx ∧ WordAt m (ptr - 32) (BitVec.ofNat 64 (ptr - 16)) ∧
  WordAt m (ptr - 64) c ∧ WordAt m (ptr - 56) c ∧ SavedAt m g (c.toNat + 0x38) r

/-- aarch64: what `__sigsetjmp` stores (`sysdeps/aarch64/setjmp.S`): x19..x28 in words 0-9, x29 in word 10,
x30 in word 11, sp in word 13 (x30 and sp xored with the guard); word 12 is unused. -/
def setjmpWordsA64 (g : BitVec 64) (x : Nat → BitVec 64) (sp : BitVec 64) : List (BitVec 64) :=
  [x 19, x 20, x 21, x 22, x 23, x 24, x 25, x 26, x 27, x 28, x 29, x 30 ^^^ g, 0, sp ^^^ g]

/-- RISC-V: what `__sigsetjmp` stores (`sysdeps/riscv/setjmp.S`): the address to continue at, s0 to s11 (x8, x9, x18 to x27) and the
stack pointer, none of them mangled. -/
def setjmpWordsRv (pc : BitVec 64) (x : Nat → BitVec 64) (sp : BitVec 64) : List (BitVec 64) :=
  [pc, x 8, x 9, x 18, x 19, x 20, x 21, x 22, x 23, x 24, x 25, x 26, x 27, sp]

/-- LoongArch: what `__sigsetjmp` stores (`sysdeps/loongarch/setjmp.S`): the address to continue at, the stack pointer, r21, the frame
pointer r22, s0 to s8 (r23 to r31), then floating point registers, of which the first is given.  Nothing mangled, as if the guard were 0. -/
def setjmpWordsLoong (pc : BitVec 64) (x : Nat → BitVec 64) (sp f24 : BitVec 64) : List (BitVec 64) :=
  [pc, sp, x 21, x 22, x 23, x 24, x 25, x 26, x 27, x 28, x 29, x 30, x 31, f24]

end Verif
