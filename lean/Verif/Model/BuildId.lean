import Verif.Model.Bytes
import Verif.Model.Kpstr
/-
The search for the build id of a mapped object, `src/kpatch_elf.c` 105-177.
-/
namespace Verif

/-- The fields of `Elf64_Phdr` that `elf_object_look_for_buildid` reads (`src/kpatch_elf.c:118-124`):
whether `p_type` is `PT_NOTE`, `p_offset` and `p_memsz`.  The sum of the two is taken not to exceed 64 bits. -/
structure NPhdr where
  isNote : Bool
  offset : Nat
  memsz : Nat
  deriving DecidableEq, Repr

/-- The size of the local buffer `buf`, `src/kpatch_elf.c` 110. -/
def noteBuf : Nat := 128

/-- `nhdr->n_namesz`, the first field of `Elf64_Nhdr`. `src/kpatch_elf.c:117,137`. -/
def noteNamesz (buf : List Byte) : Nat := leVal (buf.take 4)

/-- `nhdr->n_descsz`, the second field of `Elf64_Nhdr`. `src/kpatch_elf.c:141`. -/
def noteDescsz (buf : List Byte) : Nat := leVal ((buf.drop 4).take 4)

/-- `nhdr->n_type`, the third field of `Elf64_Nhdr`. `src/kpatch_elf.c:138`. -/
def noteType (buf : List Byte) : Nat := leVal ((buf.drop 8).take 4)

/-- The test for the GNU build id, `src/kpatch_elf.c` 137-139: `strcmp` compares up to the first zero
byte; `NT_GNU_BUILD_ID` is 3. -/
def noteIsBuildid (buf : List Byte) : Bool :=
  noteNamesz buf == 4 && (buf.drop 12).takeWhile (· != 0) == lit "GNU" && noteType buf == 3

/-- By how much `offset` grows, `src/kpatch_elf.c` 141: `n_namesz + n_descsz` is a 32-bit sum. -/
def noteStep (buf : List Byte) : Nat := (noteNamesz buf + noteDescsz buf) % 2 ^ 32 + 12

/-- The loop over the notes of one segment, `src/kpatch_elf.c` 126-145.  `none`: reading failed;
`some none`: `offset` reached `lastoffset`; `some (some buf)`: stopped at a build id with `buf` read. -/
def noteSearch (lim : Nat) (m : Mem) (vma last off : Nat) : Option (Option (List Byte)) :=
  if off < last then
    match memRead lim m (vma + off) noteBuf with
    | none => none
    | some buf =>
      if noteIsBuildid buf then some (some buf)
      else noteSearch lim m vma last (off + noteStep buf)
  else some none
  termination_by last - off
  decreasing_by simp only [noteStep]; omega

/-- One hexadecimal digit of `%02hhx`. `src/kpatch_elf.c:149`. -/
def hexDigit (n : Nat) : Byte := if n < 10 then BitVec.ofNat 8 (48 + n) else BitVec.ofNat 8 (87 + n)

/-- `sprintf("%02hhx")` of the bytes, `src/kpatch_elf.c` 148-149. -/
def hexBytes : List Byte → List Byte
  | [] => []
  | b :: bs => hexDigit (b.toNat / 16) :: hexDigit (b.toNat % 16) :: hexBytes bs

/-- The loop of `elf_object_look_for_buildid`, `src/kpatch_elf.c` 116-155, over the program headers; the
20 bytes are `KPATCH_BUILDID_LEN / 2`, `src/include/kpatch_file.h` 103.  `none`: negative result. -/
def lookBuildid (lim : Nat) (m : Mem) (vma : Nat) : List NPhdr → Option (List Byte)
  | [] => none
  | p :: ps =>
    if !p.isNote then lookBuildid lim m vma ps
    else if p.memsz > noteBuf then lookBuildid lim m vma ps
    else
      match noteSearch lim m vma (p.offset + p.memsz) p.offset with
      | none => none
      | some none => lookBuildid lim m vma ps
      | some (some buf) => some (hexBytes (((buf.drop 12).drop (noteNamesz buf)).take 20))

end Verif
