import Verif.Model.Kpstr
/-
Specification of tokenising a line.
-/
namespace Verif

/-- All characters are blanks. -/
def AllBlank (b : List Byte) : Prop := ∀ c ∈ b, c = 32#8 ∨ c = 9#8

/-- `line` is `toks` with blanks before, between and after them, up to the end or a newline. -/
inductive Spaced : List Byte → List (List Byte) → Prop
  | done (b r : List Byte) : AllBlank b → (r = [] ∨ r.head? = some 10#8) → Spaced (b ++ r) []
  | tok (b t rest : List Byte) (ts : List (List Byte)) : AllBlank b → t ≠ [] → Spaced rest ts →
      Spaced (b ++ t ++ rest) (t :: ts)

end Verif
