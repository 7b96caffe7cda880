import Verif.Model.Protect
import Verif.Spec.PatchElf
/-
Specification: what may be done with the memory of a patch.
-/
namespace Verif

/-- Section `d` is the first one called `.kpatch.data`. -/
def ElfObj.dataSec (o : ElfObj) (d : Nat) : Prop :=
  1 ≤ d ∧ d < o.secs.length ∧ o.secName d = lit ".kpatch.data" ∧ ∀ i, 1 ≤ i → i < d → o.secName i ≠ lit ".kpatch.data"

/-- Can be executed and not be written. -/
def Prots.Code (p : Prots) (z : Nat) : Prop := p z = some ⟨true, false, true⟩
/-- Can be written and not be executed. -/
def Prots.Data (p : Prots) (z : Nat) : Prop := p z = some ⟨true, true, false⟩

end Verif
