import Verif.Model.Mem
/-
Specification vocabulary for address spaces.
-/
namespace Verif

/-- The bytes `bs` are mapped and stored at address `a`. -/
def Holds (m : Mem) (a : Addr) (bs : List Byte) : Prop :=
  ∀ (k : Nat) (h : k < bs.length), m (a + k) = some bs[k]

/-- `x` is one of the `n` addresses starting at `a`. -/
def InRange (x a n : Nat) : Prop := a ≤ x ∧ x < a + n

instance (x a n : Nat) : Decidable (InRange x a n) := inferInstanceAs (Decidable (_ ∧ _))

/-- The ranges `[a, a+n)` and `[b, b+k)` have no address in common. -/
def RangesDisjoint (a n b k : Nat) : Prop := ∀ x, ¬ (InRange x a n ∧ InRange x b k)

/-- All `n` addresses starting at `a` are mapped. -/
def Mapped (m : Mem) (a n : Nat) : Prop := ∀ k, k < n → m (a + k) ≠ none

/-- None of the `n` addresses starting at `a` is mapped. -/
def Unmapped (m : Mem) (a n : Nat) : Prop := ∀ k, k < n → m (a + k) = none

end Verif
