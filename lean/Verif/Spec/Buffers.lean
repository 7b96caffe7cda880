import Verif.Model.Buffers
/-
What it means that an array is not overrun.
-/
namespace Verif

/-- From `m` to `m'` no byte outside the array of `size` bytes at `a` is changed. -/
def OnlyIn (m m' : CMem) (a size : Nat) : Prop := ∀ x, x < a ∨ a + size ≤ x → m' x = m x

/-- The C string `s` is at the address `a`: its bytes and a NUL. -/
def TextAt (m : CMem) (a : Nat) (s : List Byte) : Prop := ∀ i, i ≤ s.length → m (a + i) = (s ++ [0#8]).getD i 0#8

end Verif
