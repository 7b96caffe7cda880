import Verif.Model.Bytes
/-
Specification of well-formed patch files and of the relocatable objects they carry (System V ABI,
`src/include/kpatch_file.h`).
-/
namespace Verif

/-- Little-endian value of `n` bytes at `off`. -/
def numAt (file : List Byte) (off n : Nat) : Nat := leVal ((file.drop off).take n)

/-- The file is large enough for everything its header declares.  The header is 504 bytes; `total_size` is at
160 and counts the header; `kpatch_offset`, where the ELF image starts, is at 152; in the ELF header the
section table offset is at 40 and the number of sections at 60, a section header takes 64 bytes. -/
structure FileFits (file : List Byte) : Prop where
  header : 504 ≤ file.length
  total_header : 504 ≤ numAt file 160 4
  total : numAt file 160 4 ≤ file.length
  elf : numAt file 152 4 + 64 ≤ file.length
  image : numAt file 152 4 + (numAt file 160 4 - 504) ≤ file.length
  sections : numAt file 152 4 + numAt file (numAt file 152 4 + 40) 8 + 64 * numAt file (numAt file 152 4 + 60) 2
    ≤ file.length

/-- An ELF relocatable object for a 64 bit machine: magic, type `ET_REL`, section header size. -/
structure IsElfRel (p : List Byte) : Prop where
  size : 64 ≤ p.length
  magic : p.take 4 = [0x7f, 0x45, 0x4c, 0x46]
  type : numAt p 16 2 = 1
  shentsize : numAt p 58 2 = 64

end Verif
