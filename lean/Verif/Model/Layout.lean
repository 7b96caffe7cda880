import Verif.Model.Arch
import Verif.Model.Bytes
/-
Placement of the parts of a patch inside the memory allocated for it in the target.
Models the size computation in `object_apply_patch`, `src/kpatch_patch.c` 363-393, and
`kpatch_new_jmp_table`, `src/kpatch_elf.c` 468-483.
-/
namespace Verif

/-- `sizeof(struct kpatch_file)`, `src/include/kpatch_file.h` 126-182. -/
def hdrSize : Nat := 504

/-- `sizeof(struct kpatch_jmp_table_entry)`, `src/include/kpatch_elf.h` 34-43. -/
def Arch.jmpEntrySize : Arch → Nat
  | .x86 | .aarch64 => 16
  | .loongarch64 | .riscv64 => 24

/-- `jtbl->size` in `kpatch_new_jmp_table`: header of three `unsigned int` padded to 16 bytes plus the
entries. `src/kpatch_elf.c:468-482` (kpatch_new_jmp_table), `src/include/kpatch_elf.h:34-51`. -/
def jmpTableSize (a : Arch) (entries : Nat) : Nat := 16 + entries * a.jmpEntrySize

/-- The values stored in the patch header by `object_apply_patch`. `src/kpatch_patch.c:372-390`, `src/include/kpatch_file.h:128-185`. -/
structure Layout where
  /-- `kp->jmp_offset`; `none` when there is no undefined symbol (the field is left alone). -/
  jmpOffset : Option Nat
  elfOffset : Nat
  userInfo : Nat
  userUndo : Nat
  /-- `kp->kpatch_total_mem_sz` -/
  totalMem : Nat
  deriving DecidableEq, Repr

/-- Truncation of a `size_t` stored into a `kpatch_offset_t` (`uint32_t`). C conversion; used at `src/kpatch_patch.c:372-390`. -/
def u32 (x : Nat) : Nat := x % 2 ^ 32

/-- `src/kpatch_patch.c` 363-393.  `page` is `getpagesize()`, `undef` the number of undefined
symbols, `totalSize` the header field `total_size` (at least 504), `infoOff` the offset of
`.kpatch.info` in the ELF image, `ninfo` the number of records. -/
def layout (a : Arch) (page undef totalSize infoOff ninfo : Nat) : Layout :=
  let sz0 := roundUp hdrSize 8
  let sz1 := if undef ≠ 0 then roundUp (sz0 + jmpTableSize a undef) page else sz0
  let sz2 := roundUp sz1 page
  let sz3 := roundUp (sz2 + totalSize - hdrSize) 128
  let sz4 := roundUp (sz3 + a.hunkSize * ninfo) 16
  let sz5 := roundUp sz4 page
  { jmpOffset := if undef ≠ 0 then some (u32 sz0) else none
    elfOffset := u32 sz2
    userInfo := u32 (infoOff + u32 sz2)
    userUndo := u32 sz3
    totalMem := sz5 }

end Verif
