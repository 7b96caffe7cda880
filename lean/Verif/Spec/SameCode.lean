import Verif.Model.GenCmp
import Verif.Spec.Cblock
import Mathlib.Data.List.Forall2
/-
Specification of the comparison of two blocks: when they count as the same code.
-/
namespace Verif

variable [AsmTarget]

/-- What the comparison depends on: which tokens of the two files count as the same, the option --os, the directories of the
files, the type and names of the blocks, and whether the sections must be the same. -/
structure CmpSpec where
  alike : List Byte → List Byte → Prop
  os : GenOs
  d0 : List Byte
  d1 : List Byte
  ty : BType
  n0 : List Byte
  n1 : List Byte
  sect : Bool

/-- Two statements have the same number of tokens, and the tokens count as the same one by one. -/
def CmpSpec.sameTokens (c : CmpSpec) (a b : List Byte) : Prop :=
  List.Forall₂ (fun x y => c.alike x.text y.text) (tokens (some a)) (tokens (some b))

/-- Statements that are left out of the comparison: changes of section, `.globl`, empty ones. -/
def Irrelevant (l : Ln) : Prop :=
  l.dir ∈ [Dir.text, .data, .bss, .sect, .pushsection, .popsection, .previous, .subsection, .globl] ∨ l.text = []

/-- The statements are in sections of the same name; this is not asked of `.local` and `.comm`. -/
def CmpSpec.sameSection (c : CmpSpec) (a b : Ln) : Prop :=
  c.sect = true → a.sect.name = b.sect.name ∨ a.dir ∈ [Dir.lcl, .comm] ∨ b.dir ∈ [Dir.lcl, .comm]

/-- `seg0` and `seg1` are the at most 15 statements after the load of a line number, up to the call of a function that is
known to have its line number in the register loaded: they are the same, and do not load the register again. -/
structure LinenoCall (c : CmpSpec) (a b : Ln) (seg0 seg1 : List Ln) : Prop where
  same : List.Forall₂ (fun x y => c.sameTokens x.text y.text) seg0 seg1
  short : seg0.length ≤ 15
  call : ∃ fn reg init last, (fn, reg) ∈ linenoFunctions ∧ movConstReg a.text = reg ∧ movConstReg b.text = reg ∧
    seg0 = init ++ [last] ∧ firstTok last.text = lit "call" ∧ secondTok last.text = fn ∧
    (∀ x ∈ init, firstTok x.text ≠ lit "call") ∧
    List.Forall₂ (fun x y : Ln => ¬ (movConstReg x.text = reg ∧ movConstReg y.text = reg)) seg0 seg1

/-- A statement of the form `ud2 ; pushq X ; ret X`. -/
def BugStatement (s : List Byte) : Prop :=
  ∃ x y, (getTokenD bugDelims x).2 = y ∧
    (getToken (some s)).1.text = lit "ud2" ∧ (getToken (getToken (some s)).2).1.text = lit ";" ∧
    (getToken (getToken (getToken (some s)).2).2).1.text = lit "pushq" ∧ x = (getToken (getToken (getToken (some s)).2).2).2 ∧
    (getToken y).1.text = lit ";" ∧ (getToken (getToken y).2).1.text = lit "ret" ∧
    (getTokenD bugDelims (getToken (getToken y).2).2).2 = none

/-- A statement about the line number of a BUG(). -/
def BugLine (os : GenOs) (a b : Ln) : Prop :=
  match os with
  | .rhel5 => BugStatement a.text ∧ BugStatement b.text
  | .rhel6 => a.sect.name = lit "__bug_table" ∧ b.sect.name = lit "__bug_table" ∧
      ((lit "2:\t.long 1b - 2b, " <+: a.text ∧ lit "2:\t.long 1b - 2b, " <+: b.text) ∨
       (firstTok a.text = lit ".word" ∧ firstTok b.text = lit ".word"))

/-- Two strings that are the same after the directories of the files.  Only the first statement must be a `.string`. -/
def BuildPath (d0 d1 : List Byte) (a b : Ln) : Prop :=
  firstTok a.text = lit ".string" ∧ ∃ r, secondTok a.text = lit "\"" ++ d0 ++ r ∧ secondTok b.text = lit "\"" ++ d1 ++ r

/-- Bytes of two debug descriptors. -/
def DescriptorByte (n0 n1 : List Byte) (a b : Ln) : Prop :=
  lit "descriptor." <+: n0 ∧ lit "descriptor." <+: n1 ∧ firstTok a.text = lit ".byte" ∧ firstTok b.text = lit ".byte"

/-- The same code: statement by statement the same, but for what is deliberately ignored. -/
inductive SameCode (c : CmpSpec) : List Ln → List Ln → Prop where
  | nil : SameCode c [] []
  | skip0 {a l0 l1} : Irrelevant a → SameCode c l0 l1 → SameCode c (a :: l0) l1
  | skip1 {b l0 l1} : Irrelevant b → SameCode c l0 l1 → SameCode c l0 (b :: l1)
  | line {a b l0 l1} : c.sameSection a b → c.sameTokens a.text b.text → SameCode c l0 l1 → SameCode c (a :: l0) (b :: l1)
  | comment {a b l0 l1} : c.sameSection a b → a.dir = .comment → b.dir = .comment → SameCode c l0 l1 →
      SameCode c (a :: l0) (b :: l1)
  | lineno {a b seg0 seg1 l0 l1} : c.ty = .func → c.sameSection a b → LinenoCall c a b seg0 seg1 → SameCode c l0 l1 →
      SameCode c (a :: seg0 ++ l0) (b :: seg1 ++ l1)
  | bug {a b l0 l1} : c.ty = .func → c.sameSection a b → BugLine c.os a b → SameCode c l0 l1 →
      SameCode c (a :: l0) (b :: l1)
  | path {a b l0 l1} : c.ty = .var → c.sameSection a b → BuildPath c.d0 c.d1 a b → SameCode c l0 l1 →
      SameCode c (a :: l0) (b :: l1)
  | descriptor {a b l0 l1} : c.ty = .var → c.sameSection a b → DescriptorByte c.n0 c.n1 a b → SameCode c l0 l1 →
      SameCode c (a :: l0) (b :: l1)

/-- No rule that ignores a difference applies to the statement of a function. -/
structure Compared (os : GenOs) (a : Ln) : Prop where
  code : ¬ Irrelevant a
  comment : a.dir ≠ .comment
  lineno : movConstReg a.text ∉ linenoFunctions.map (·.2)
  bug : match os with
    | .rhel5 => ¬ BugStatement a.text
    | .rhel6 => a.sect.name ≠ lit "__bug_table"

end Verif
