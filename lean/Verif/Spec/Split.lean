import Verif.Model.Parse
/-
Specification of splitting lines into statements.
-/
namespace Verif

variable [AsmTarget]

/-- The tokens of a line. -/
def ntoks (line : List Byte) : List (List Byte) := ((tokens (some line)).map Kpstr.text).filter (· ≠ [])

/-- A comment starts: `#` or, on AArch64, `//`. -/
def commentTok (t : List Byte) : Bool := decide (t = lit "#") || (decide (AsmTarget.isa = .aarch64) && decide (t = lit "//"))

/-- The tokens without the `;` between statements; after a `#` (on AArch64 also `//`) everything is a comment. -/
def withoutSeps : List (List Byte) → List (List Byte)
  | [] => []
  | t :: ts =>
    if commentTok t = true then t :: ts
    else if t = lit ";" then withoutSeps ts
    else t :: withoutSeps ts

/-- The tokens of one statement: no `;` before a comment, and a label is a statement of its own. (A comment
may start with `# :`.) -/
def OneStatement (ts : List (List Byte)) : Prop :=
  withoutSeps ts = ts ∧ ∀ t r, ts = t :: lit ":" :: r → commentTok t = false → r = []

end Verif
