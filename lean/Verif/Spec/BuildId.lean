import Verif.Spec.Memory
import Verif.Model.Bytes
import Verif.Model.BuildId
/-
Specification vocabulary for build ids: notes as the ELF format lays them out.
-/
namespace Verif

/-- A note of an ELF file: its name (with the terminating zero), its description and its type. -/
structure Note where
  name : List Byte
  desc : List Byte
  typ : Nat
  deriving DecidableEq, Repr

/-- Bytes filled up with zeros to a multiple of four. -/
def padded (bs : List Byte) : List Byte := bs ++ List.replicate ((4 - bs.length % 4) % 4) 0

/-- A note in the file: the three words of the header, the name and the description, each filled up to a
multiple of four bytes. -/
def Note.encoded (n : Note) : List Byte :=
  leBytes 4 n.name.length ++ leBytes 4 n.desc.length ++ leBytes 4 n.typ ++ padded n.name ++ padded n.desc

/-- The contents of a segment of notes. -/
def notesEncoded (ns : List Note) : List Byte := ns.flatMap Note.encoded

/-- The note is the GNU build id: type 3 of the vendor `GNU`. -/
def Note.IsBuildId (n : Note) : Prop := n.name = lit "GNU" ++ [0] ∧ n.typ = 3

instance (n : Note) : Decidable n.IsBuildId := inferInstanceAs (Decidable (_ ∧ _))

/-- A segment of the program: notes at an offset of the file, or something else. -/
inductive PSeg where
  | notes (offset : Nat) (ns : List Note)
  | other (offset memsz : Nat)
  deriving Repr

/-- The program header of the segment. -/
def PSeg.header : PSeg → NPhdr
  | .notes off ns => ⟨true, off, (notesEncoded ns).length⟩
  | .other off sz => ⟨false, off, sz⟩

/-- The build id of a file: the description of its first build id note. -/
def buildIdOf (segs : List PSeg) : Option (List Byte) :=
  ((segs.flatMap fun s => match s with | .notes _ ns => ns | .other .. => []).find?
    (fun n => decide n.IsBuildId)).map Note.desc

/-- The segment is in memory, the file being mapped from `vma` on; `slack` more bytes behind the segment
are mapped. -/
def PSeg.Loaded (m : Mem) (vma slack : Nat) : PSeg → Prop
  | .notes off ns =>
    Holds m (vma + off) (notesEncoded ns) ∧ Mapped m (vma + off) ((notesEncoded ns).length + slack)
  | .other .. => True

/-- The fields of the header of a note fit its words. -/
def Note.Fits (n : Note) : Prop :=
  n.name.length < 2 ^ 32 ∧ n.desc.length < 2 ^ 32 ∧ n.typ < 2 ^ 32

/-- Neither the name nor the description of the note needs to be filled up. -/
def Note.Unpadded (n : Note) : Prop := n.name.length % 4 = 0 ∧ n.desc.length % 4 = 0

instance (n : Note) : Decidable n.Unpadded := inferInstanceAs (Decidable (_ ∧ _))
instance (n : Note) : Decidable n.Fits := inferInstanceAs (Decidable (_ ∧ _))

/-- The lower-case hexadecimal digits. -/
def hexAlphabet : List Byte := lit "0123456789abcdef"

/-- `s` is the lower-case hexadecimal writing of the bytes: two digits for each, the high half first. -/
def IsHexOf (s : List Byte) (bs : List Byte) : Prop :=
  s.length = 2 * bs.length ∧
  ∀ (k : Nat) (h : k < bs.length),
    s[2 * k]? = hexAlphabet[bs[k].toNat / 16]? ∧ s[2 * k + 1]? = hexAlphabet[bs[k].toNat % 16]?

end Verif
