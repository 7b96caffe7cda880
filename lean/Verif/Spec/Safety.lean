import Verif.Model.Safety
import Verif.Spec.Patch
/-
Specification vocabulary for stacks.
-/
namespace Verif

/-- The address lies in the code of a function that the patch replaces. -/
def InReplaced (infos : List Info) (ip : Nat) : Prop := ∃ i ∈ infos, i.isOld ∧ InRange ip i.daddr i.dlen

/-- The address lies in the replacement of a function. -/
def InReplacement (infos : List Info) (ip : Nat) : Prop := ∃ i ∈ infos, i.isOld ∧ InRange ip i.saddr i.slen

/-- The code that is about to go away. -/
def Busy (d : Direction) (infos : List Info) (ip : Nat) : Prop :=
  match d with
  | .apply => InReplaced infos ip
  | .unapply => InReplacement infos ip

/-- Every stack could be unwound and no frame of any of them is in the given code. -/
def LookClear (code : Nat → Prop) (l : Look) : Prop :=
  ∀ s ∈ l.coros ++ l.threads, ∃ fs, s = some fs ∧ ∀ ip ∈ fs, ¬ code ip

/-- No function starts at address 0. -/
def NoNullCode (d : Direction) (infos : List Info) : Prop := ∀ i ∈ infos, i.isOld → infoAddr d i ≠ 0

end Verif
