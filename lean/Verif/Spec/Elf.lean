import Verif.Model.Symbols
/-
Specification of symbol definitions in shared libraries (System V ABI).
-/
namespace Verif

/-- A dynamic symbol table defines `name`, as a symbol of type `t` with link-time address `v`: one of its
entries has that name and belongs to a section of the library (index neither 0, `SHN_UNDEF`, nor
reserved, `SHN_LORESERVE` = `0xff00` and above). -/
def Defines (table : List DynSym) (name : CStr) (t : SymType) (v : BitVec 64) : Prop :=
  ∃ s ∈ table, s.name = name ∧ s.shndx ≠ 0 ∧ s.shndx < 0xff00 ∧ s.typ = t ∧ s.value = v

/-- What the C library promises of `qsort` for a comparison function: a rearrangement of the table in
which no entry compares greater than a later one. -/
def SortedBy (cmp : DynSym → DynSym → Int) (sorted table : List DynSym) : Prop :=
  sorted.Perm table ∧ sorted.Pairwise fun a b => cmp a b ≤ 0

/-- Names contain no 0 byte. -/
def NamesOk (table : List DynSym) : Prop := ∀ s ∈ table, 0#8 ∉ s.name

end Verif
