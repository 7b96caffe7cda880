import Verif.Model.Mem
/-
The entry jump installed over a patched function, for the four architectures.

Models `src/arch/{x86,aarch64,loongarch64,riscv64}/arch_patch.c`.
-/
namespace Verif

/-- The supported architectures. Models the choice of directory under src/arch; the four implementations of patch_apply_hunk are `src/arch/x86/arch_patch.c`, `src/arch/aarch64/arch_patch.c`, `src/arch/riscv64/arch_patch.c`, `src/arch/loongarch64/arch_patch.c`. -/
inductive Arch where
  | x86 | aarch64 | loongarch64 | riscv64
  deriving DecidableEq, Repr

/-- `HUNK_SIZE`: x86 `arch_patch.c` 37, aarch64 31, loongarch64 28, riscv64 33. -/
def Arch.hunkSize : Arch → Nat
  | .x86 => 5
  | .aarch64 => 4
  | .loongarch64 => 4
  | .riscv64 => 8

/-- The bytes of a 32-bit value in memory order.  All four targets are little-endian
(the C code stores through `unsigned int *`). No function of its own in the code; used by the stores of `src/arch/aarch64/arch_elf.c:40-160`. -/
def le32 (w : BitVec 32) : List Byte :=
  [w.extractLsb' 0 8, w.extractLsb' 8 8, w.extractLsb' 16 8, w.extractLsb' 24 8]

/-- `code` built by `patch_apply_hunk`, `src/arch/x86/arch_patch.c` 42 and 59:
`e9` followed by `(unsigned int)(saddr - daddr - 5)`. -/
def x86Code (daddr saddr : BitVec 64) : List Byte :=
  0xe9#8 :: le32 ((saddr - daddr - 5#64).setWidth 32)

/-- `code` built by `patch_apply_hunk`, `src/arch/aarch64/arch_patch.c` 36 and 54-56:
`(unsigned int)(saddr - daddr) / 4`, then the top byte is masked with 3 and or-ed with `0x14`. -/
def aarch64Code (daddr saddr : BitVec 64) : List Byte :=
  let w : BitVec 32 := (saddr - daddr).setWidth 32 / 4#32
  match le32 w with
  | [b0, b1, b2, b3] => [b0, b1, b2, (b3 &&& 0x3#8) ||| 0x14#8]
  | l => l

/-- `imm26` computed in `src/arch/loongarch64/arch_patch.c` 53-54 (arithmetic shift of a signed
64-bit value). -/
def loongImm26 (daddr saddr : BitVec 64) : BitVec 64 := (saddr - daddr).sshiftRight 2

/-- The range test of `src/arch/loongarch64/arch_patch.c` 55: true when the code refuses. -/
def loongOutOfRange (imm : BitVec 64) : Bool :=
  decide (imm.toInt < -(2 ^ 25 : Int)) || decide (imm.toInt ≥ (2 ^ 25 : Int) - 1)

/-- `inst` of `src/arch/loongarch64/arch_patch.c` 60-62. -/
def loongInst (imm : BitVec 64) : BitVec 32 :=
  let l16 : BitVec 32 := (imm &&& 0xffff#64).setWidth 32
  let h10 : BitVec 32 := (imm.sshiftRight 16 &&& 0x3ff#64).setWidth 32
  0x50000000#32 ||| (l16 <<< 10) ||| h10

/-- `code` of `src/arch/loongarch64/arch_patch.c` 53-64; `none` when the branch target is out of
range. -/
def loongCode (daddr saddr : BitVec 64) : Option (List Byte) :=
  let imm := loongImm26 daddr saddr
  if loongOutOfRange imm then none else some (le32 (loongInst imm))

/-- `set_utype_imm`, `src/arch/riscv64/riscv64_imm.h` 9-15.  `imm` is an `unsigned long`, the result
is truncated to 32 bits. -/
def rvSetUtypeImm (ins : BitVec 32) (imm : BitVec 64) : BitVec 32 :=
  let imm' := imm + ((imm &&& 0x800#64) <<< 1)
  ((imm' &&& 0xfffff000#64) ||| (ins &&& 0xfff#32).setWidth 64).setWidth 32

/-- `set_itype_imm`, `src/arch/riscv64/riscv64_imm.h` 17-21. -/
def rvSetItypeImm (ins : BitVec 32) (imm : BitVec 64) : BitVec 32 :=
  (((imm &&& 0xfff#64) <<< 20) ||| (ins &&& 0xfffff#32).setWidth 64).setWidth 32

/-- `code` of `src/arch/riscv64/arch_patch.c` 55-57: `offset` is an `int` (truncated to 32 bits) that
is sign-extended again when passed as `unsigned long`. -/
def riscvCode (daddr saddr : BitVec 64) : List Byte :=
  let off : BitVec 64 := ((saddr - daddr).setWidth 32).signExtend 64
  le32 (rvSetUtypeImm 0xf97#32 off) ++ le32 (rvSetItypeImm 0xf8067#32 off)

/-- What `patch_apply_hunk` wants to write at `daddr`; `none` = it refuses (loongarch64 range test,
which is done after the original code was saved). See `src/arch/x86/arch_patch.c`, `src/arch/aarch64/arch_patch.c`, `src/arch/riscv64/arch_patch.c`, `src/arch/loongarch64/arch_patch.c` (patch_apply_hunk). -/
def Arch.hunkCode (a : Arch) (daddr saddr : BitVec 64) : Option (List Byte) :=
  match a with
  | .x86 => some (x86Code daddr saddr)
  | .aarch64 => some (aarch64Code daddr saddr)
  | .loongarch64 => loongCode daddr saddr
  | .riscv64 => some (riscvCode daddr saddr)

/-- The test done before anything else: loongarch64 `arch_patch.c` 39-42 refuses an unaligned
`daddr`; the other architectures accept every address. -/
def Arch.alignOk (a : Arch) (daddr : Nat) : Bool :=
  match a with
  | .loongarch64 => daddr % 4 == 0
  | _ => true

end Verif
