import Verif.Model.Kpstr
/-
What the lists of symbols and the file of functions say.
-/
namespace Verif

/-- `e` is one of the parts into which `sep` divides `t`. -/
def Piece (sep : Byte) (t e : List Byte) : Prop :=
  sep ∉ e ∧ ∃ a b, t = a ++ e ++ b ∧ (a = [] ∨ a.getLast? = some sep) ∧ (b = [] ∨ b.head? = some sep)

/-- An entry of a list names a symbol: `symbol`, or `file:symbol`, where the name of the file with the symbol begins with
`file`. -/
def EntryNames (file sym e : List Byte) : Prop := (58#8 ∉ e ∧ e = sym) ∨ ∃ p, e = p ++ 58#8 :: sym ∧ 58#8 ∉ p ∧ p <+: file

/-- A symbol of a file is named in a list, given with one or several options. -/
def InList (args : List (List Byte)) (file sym : List Byte) : Prop :=
  ∃ t ∈ args, ∃ e, e ≠ [] ∧ Piece 44#8 t e ∧ EntryNames file sym e

/-- The file of functions to patch is in use: it is not empty and does not begin with a blank or an empty line. -/
def Configured (content : List Byte) : Prop := ∃ c, content.head? = some c ∧ c ≠ 10#8 ∧ c ≠ 32#8

/-- A line of the file begins with a name. -/
def InFile (content sym : List Byte) : Prop := ∃ l, Piece 10#8 content l ∧ sym <+: l

/-- The options exclude a function from the patch: it is not in the file of functions, or, when that is not in use, it is
in the list of ignored symbols. -/
def Excluded (conf : Option (List Byte)) (args : List (List Byte)) (file sym : List Byte) : Prop :=
  (∃ content, conf = some content ∧ Configured content ∧ ¬ InFile content sym) ∨
  ((∀ content, conf = some content → ¬ Configured content) ∧ InList args file sym)

/-- A text file with lines shorter than `n`. -/
def ShortLines (n : Nat) (content : List Byte) : Prop := 0#8 ∉ content ∧ ∀ l, Piece 10#8 content l → l.length < n

end Verif
