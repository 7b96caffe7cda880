import Verif.Model.AddrBias
/-
Specification for C70; from the model only the types of the input are used.
-/
namespace Verif

/-- The symbol `o` of the original has the name, type and binding of `s`. -/
def Namesake (o s : FixSym) : Prop := o.name = s.name ∧ o.sym.typ = s.sym.typ ∧ o.sym.bind = s.sym.bind

/-- The symbol is a function that the linked object `p` defines outside of the patch's own sections. -/
def ProgramFunction (p : FixObj) (s : FixSym) : Prop :=
  s.sym.shndx ≠ 0 ∧ s.sym.typ = .func ∧ ∃ sec, p.secs[s.sym.shndx]? = some sec ∧ ¬ lit ".kpatch." <+: sec.name

/-- Offset of a symbol in its section. -/
def offsetIn (o : FixObj) (s : FixSym) : Option (BitVec 64) := (o.secs[s.sym.shndx]?).map fun sec => s.sym.value - sec.addr

end Verif
