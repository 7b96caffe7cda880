import Verif.Model.Cblock
import Verif.Spec.Dbgfilter
/-
Specification of the division into blocks.
-/
namespace Verif

variable [AsmTarget]

/-- Line `k` belongs to the block. -/
def Cblock.has (b : Cblock) (k : Nat) : Prop := b.start ≤ k ∧ k < b.stop

/-- The line declares a symbol global or weak, and an earlier block has the same text as its name: the declaration is
a repetition. -/
def RepeatedAttr (bs : List Cblock) (k : Nat) (l : Ln) : Prop :=
  firstTok l.text ∈ [lit ".globl", lit ".global", lit ".weak"] ∧ ∃ b ∈ bs, b.start < k ∧ b.name.text = skipBlanks l.text

/-- The name at the second token of the line is `n`, or begins with `n.cold` (the part of the function that the compiler
has moved away). -/
def namesFn (n : List Byte) (line : List Byte) : Bool :=
  let t := (getToken (getToken (some line)).2).1
  decide (t.text = n) || (decide (n.length < t.l) && !hasSub n (lit ".cold") && (n ++ lit ".cold").isPrefixOf t.s)

/-- The tokens after the second one. -/
def thirdTok (line : List Byte) : List Byte := (getToken (getToken (getToken (some line)).2).2).1.text
def fourthTok (line : List Byte) : List Byte := (getToken (getToken (getToken (getToken (some line)).2).2).2).1.text

/-- `@function` or, on AArch64, `%function`. -/
def functionAttr : List Byte :=
  match AsmTarget.isa with
  | .aarch64 => lit "%function"
  | _ => lit "@function"

/-- `.type n, @function` -/
def declaresFn (n : List Byte) (line : List Byte) : Bool :=
  firstTok line = lit ".type" && thirdTok line = lit "," && fourthTok line = functionAttr && namesFn n line

/-- `.size n` -/
def sizesFn (n : List Byte) (line : List Byte) : Bool := firstTok line = lit ".size" && namesFn n line

/-- At line `k` of the lines `ls` (of a function from its start) the function is complete: the line is a `.size` of the
function, and every `.type` of it has had its `.size`. -/
def completeAt (n : List Byte) (ls : List (List Byte)) (k : Nat) : Prop :=
  ∃ l, ls[k]? = some l ∧ sizesFn n l = true ∧
    (ls.take (k + 1)).countP (declaresFn n) = (ls.take (k + 1)).countP (sizesFn n)

/-- The function that starts with the lines `ls` has `m` lines: up to the first line where it is complete, or up to the
end of the file if there is none before the last line. -/
def FnExtent (n : List Byte) (ls : List (List Byte)) (m : Nat) : Prop :=
  (0 < m ∧ m < ls.length ∧ completeAt n ls (m - 1) ∧ ∀ k < m - 1, ¬ completeAt n ls k) ∨
  (m = ls.length ∧ ∀ k, k + 1 < ls.length → ¬ completeAt n ls k)

/-- `.type n, @function` for the function itself. -/
def DeclaresExactly (n : List Byte) (line : List Byte) : Prop :=
  firstTok line = lit ".type" ∧ secondTok line = n ∧ thirdTok line = lit "," ∧ fourthTok line = functionAttr

end Verif
