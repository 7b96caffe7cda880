import Verif.Spec.Fixup
import Verif.Model.FixupTls
/-
Specification for C74: thread-local variables and copied variables on AArch64, RISC-V and LoongArch, from the psABIs.
From the model only the types of the input (sections, symbols, relocations) are used.
-/
namespace Verif
open Cpu

/-- The address a relocation refers to (`refersTo` for any architecture). -/
def archRefersTo {T : Type} (o : FixObj) (P : Placement) (r : Rela T) : Option (BitVec 64) :=
  (o.syms[r.sym]?).map fun s => runAddr o P r.sym s.sym + r.addend

/-- The linker made the variable part of the linked patch although a library defines it (a copy relocation): its name
has a version, `name@VERSION`, and is not the name of a section of the original. -/
def Imported (orig : FixObj) (name : CStr) : Prop :=
  0x40#8 ∈ name ∧ ∀ i s, orig.secs[i]? = some s → i ≠ 0 → s.name ≠ name

/-- The symbol without its definition. -/
def FixSym.undefined (s : FixSym) : FixSym := { s with sym := { s.sym with shndx := 0 } }

/-- The loader puts the offset from the thread pointer of the variable `s` of a program with the dynamic relocations
`dyn` and the dynamic symbols `names` at the linked address `slot`: there is a relocation of type `tp` for the variable,
by its offset in the segment for variables of the program itself, by its name for variables of a library. -/
def OffsetSlotOf {D : Type} (tp : D) (names : List CStr) (dyn : Option (List (DynRelOf D))) (s : FixSym)
    (slot : BitVec 64) : Prop :=
  ∃ all, dyn = some all ∧ ∃ d ∈ all, d.typ = tp ∧ d.offset = slot ∧
    (((s.sym.bind = .loc ∨ s.sym.shndx ≠ 0) ∧ d.sym = 0 ∧ d.addend = s.sym.value) ∨
     (s.sym.bind = .glob ∧ s.sym.shndx = 0 ∧ d.sym ≠ 0 ∧ d.addend = 0#64 ∧
      names[d.sym]? = some (s.name.takeWhile (· != 0x40#8))))

/-- The offset of a thread-local variable of the program from the thread pointer on RISC-V and LoongArch: the thread
pointer is the start of the program's thread-local segment (variant I without a gap). -/
def tpOffset1 (s : Sym) : Nat := s.value.toNat

/-- RISC-V relocations as they are applied: with the offset in the section instead of the linked address. -/
def rvSectionRelative (shAddr : Nat) (r : Rela RvFixRel) : Rela RvRel :=
  { offset := r.offset - shAddr, typ := r.typ.applied, sym := r.sym, addend := r.addend }

/-- AArch64 relocations as they are applied. -/
def a64SectionRelative (shAddr : Nat) (r : Rela A64Rel) : Rela A64Rel := { r with offset := r.offset - shAddr }

end Verif
