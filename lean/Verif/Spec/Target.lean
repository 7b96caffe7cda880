import Verif.Spec.PatchElf
import Verif.Spec.Patch
/-
Specification: the functions a patch replaces, as its object describes them (`struct kpatch_info`: the address of
the old function, the address of the new one, their lengths, ..., flags; 48 bytes).
-/
namespace Verif

/-- A function of a patch: the old one by its address in the patched file and its length (`none` for a function
that is only added) and the new one by its place in the patch's object and its length. -/
structure PatchFn where
  old : Option (BitVec 64 × Nat)
  new : Nat
  len : Nat

/-- Symbol `k` stands for the place `off` bytes into section `s`. -/
def ElfObj.SymIs (o : ElfObj) (k s : Nat) (off : BitVec 64) : Prop :=
  1 ≤ k ∧ s ≠ 0 ∧ s < 0xff00 ∧ ∃ p : Nat × PSym, o.syms[k]? = some p ∧ p.2.sym.shndx = s ∧
    (p.2.sym.typ = .sect ∧ off = 0#64 ∨ p.2.sym.typ ∉ [.sect, .tls] ∧ off = p.2.sym.value)

/-- Relocation section `i` makes the eight bytes at `pos` the address of the place `off` bytes into section `s`; `abs` is
the number of the architecture's type for that. -/
def ElfObj.AddressAt (o : ElfObj) (abs i pos s : Nat) (off : BitVec 64) : Prop :=
  ∃ r ∈ o.rels i, r.typ = abs ∧ r.offset = pos ∧ ∃ d, o.SymIs r.sym s d ∧ off = d + r.addend

/-- Record `j` of section `n`, whose relocations are in section `i`, is about `f`. -/
structure ElfObj.RecordIs (o : ElfObj) (w : Rela Nat → Nat) (img : List Byte) (abs i n j : Nat) (f : PatchFn) : Prop where
  old : ∀ d len, f.old = some (d, len) → FieldAt img ((o.sec n).offset + 48 * j + 16) 4 len ∧
    ∃ s off, o.AddressAt abs i (48 * j) s off ∧ (o.sec s).typ = 8 ∧ (o.sec s).addr ≠ 0#64 ∧ d = (o.sec s).addr + off
  added : f.old = none → FieldAt img ((o.sec n).offset + 48 * j) 8 0 ∧ FieldAt img ((o.sec n).offset + 48 * j + 16) 4 0 ∧
    ∀ k, k < 8 → ¬ o.Relocated w ((o.sec n).offset + 48 * j + k)
  new : f.new < img.length ∧ ∃ s off, o.AddressAt abs i (48 * j + 8) s off ∧ (o.sec s).typ ≠ 8 ∧
    BitVec.ofNat 64 f.new = BitVec.ofNat 64 (o.sec s).offset + off
  len : FieldAt img ((o.sec n).offset + 48 * j + 20) 4 f.len
  flags : ∃ x, x < 2 ^ 31 ∧ FieldAt img ((o.sec n).offset + 48 * j + 40) 4 x
  plain : ∀ k, 16 ≤ k → k < 48 → ¬ o.Relocated w ((o.sec n).offset + 48 * j + k)

/-- The records of the object are those of the functions `fns`, followed by the end mark of 24 zero bytes. -/
structure ElfObj.Replaces (o : ElfObj) (w : Rela Nat → Nat) (img : List Byte) (abs n : Nat) (fns : List PatchFn) : Prop where
  size : (o.sec n).size = 48 * fns.length + 24
  kind : (o.sec n).typ ∉ [2, 3, 8]
  records : fns ≠ [] → ∃ i, o.isRela i ∧ (o.sec i).info = n ∧ ∀ (j : Nat) (f : PatchFn), fns[j]? = some f → o.RecordIs w img abs i n j f
  ending : ∀ k, k < 24 → img[(o.sec n).offset + 48 * fns.length + k]? = some 0#8 ∧
    ¬ o.Relocated w ((o.sec n).offset + 48 * fns.length + k)

/-- The patch file: a header of 504 bytes with the place of the object (offset 152) and the size of the whole (offset
160), and the object `o` as `img`; section `n` of it has the records, which are about `fns`. -/
structure PatchFileIs (w : Rela Nat → Nat) (abs : Nat) (file : List Byte) (o : ElfObj) (n : Nat) (img : List Byte)
    (fns : List PatchFn) : Prop where
  object : ∃ off, FieldAt file 152 4 off ∧ img = file.drop off
  total : FieldAt file 160 4 (504 + img.length)
  header : 504 ≤ file.length
  encoded : o.Encoded img
  wellFormed : o.WellFormed w img.length
  info : o.infoSec n
  replaces : o.Replaces w img abs n fns

/-- Where the old code of a function is in a program that was moved by `load`. -/
def PatchFn.oldRange (load : BitVec 64) (f : PatchFn) (x : Nat) : Prop :=
  ∃ d len, f.old = some (d, len) ∧ InRange x (d + load).toNat len

/-- The functions can be replaced: each at least as long as the jump, all their code mapped, no two overlapping. -/
structure Replaceable (a : Arch) (m : Mem) (load : BitVec 64) (fns : List PatchFn) : Prop where
  long : ∀ f ∈ fns, ∀ d len, f.old = some (d, len) → a.hunkSize ≤ len ∧ Mapped m (d + load).toNat len
  disjoint : fns.Pairwise fun f g => ∀ d len d' len', f.old = some (d, len) → g.old = some (d', len') →
    RangesDisjoint (d + load).toNat len (d' + load).toNat len'

end Verif
