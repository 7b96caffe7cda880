import Verif.Model.Cc
/-
Specification of the rewriting of a compiler command line.
-/
namespace Verif

/-- An option: starts with `-` and is not just `-`. -/
def IsOption (a : CStr) : Prop := ∃ c t, a = 45#8 :: c :: t ∧ c ≠ 0#8

/-- The arguments with their positions (the first argument has position 1). -/
def positions (args : List CStr) : List (CStr × Nat) := args.zipIdx 1

open Classical in
/-- The arguments that are passed on: not one of the positions `outs` (the `-o` option and its argument)
and not an option in the removal list. -/
noncomputable def passedOn (remove : List CStr) (outs : List Nat) (args : List CStr) : List (CStr × Nat) :=
  (positions args).filter fun p => decide (p.2 ∉ outs ∧ ¬ (IsOption p.1 ∧ p.1 ∈ remove))

/-- Strings are C strings: no 0 byte inside. -/
def ArgsOk (as : List CStr) : Prop := ∀ a ∈ as, 0#8 ∉ a

/-- The argument at a position. -/
def argPos (args : List CStr) (p : Nat) : Option CStr := if p = 0 then none else args[p - 1]?

end Verif
