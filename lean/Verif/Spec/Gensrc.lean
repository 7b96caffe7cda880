import Verif.Spec.GenOut
import Verif.Spec.SameCode
/-
Specification of the analysis of the generator: which names of the two files count as the same.
-/
namespace Verif

variable [AsmTarget]

/-- A correspondence of blocks: from the start of a block of the old file to the start of a block of the new file. -/
abbrev Corresp := Nat → Option Nat

/-- Blocks that correspond have the same name or, if the old name was made by the compiler, the same base name (the name
without the number made by the compiler). -/
def Matching (L : GSt) (P : Corresp) : Prop :=
  ∀ b0 ∈ L.f0.bs, ∀ q, P b0.start = some q → ∃ b1 ∈ L.f1.bs, b1.start = q ∧
    (b0.name.text = b1.name.text ∨ (b0.auto = true ∧ b0.human.text = b1.human.text))

/-- The name `a` of the old file stands for the name `b` of the new file: they are the names of blocks that correspond, or
of labels at the same place in the lists of labels of such blocks. -/
def Corr (L : GSt) (P : Corresp) (a b : List Byte) : Prop :=
  ∃ b0 ∈ L.f0.bs, ∃ b1 ∈ L.f1.bs, P b0.start = some b1.start ∧
    ((a = b0.name.text ∧ b = b1.name.text) ∨
     ∃ (i : Nat) (l0 l1 : Ln), (L.f0.labels b0)[i]? = some l0 ∧ (L.f1.labels b1)[i]? = some l1 ∧
       a = firstTok l0.text ∧ b = firstTok l1.text)

/-- The tokens count as the same: the same text, or names that stand for each other.  In the last case `a` stands for a
name of the new file that happens to be a name of the old file, too, where it stands for `b`. -/
def Alike (L : GSt) (P : Corresp) (a b : List Byte) : Prop :=
  a = b ∨ Corr L P a b ∨ ∃ n, Corr L P a n ∧ Corr L P n b

/-- The old block `b0` and the new block `b1` have the same code. -/
def SameBlocks (o : GenOpts) (L : GSt) (P : Corresp) (b0 b1 : GBlock) : Prop :=
  SameCode ⟨Alike L P, o.os, L.f0.dirname, L.f1.dirname, b0.ty, b0.name.text, b1.name.text, true⟩ (L.f0.lines b0) (L.f1.lines b1)

/-- The names of the blocks and the labels of the file. -/
def GFile.symbols (f : GFile) : List (List Byte) :=
  f.bs.flatMap fun b => b.name.text :: (f.labels b).map fun l => firstTok l.text

/-- The text is a token of the statement. -/
def HasToken (l : Ln) (x : List Byte) : Prop := x ∈ (tokens (some l.text)).map (·.text)

/-- The statements are the same text, one by one; changes of section, `.globl` and empty statements are left out, and any
comment is the same as any other. -/
def SameStatements (l0 l1 : List Ln) : Prop :=
  List.Forall₂ (fun a b : Ln => a.text = b.text ∨ (a.dir = .comment ∧ b.dir = .comment))
    (l0.filter fun l => !skippedLine l) (l1.filter fun l => !skippedLine l)

/-- The end of the names of new symbols, with the final NUL. -/
def kp0 : List Byte := lit ".kpatch" ++ [0#8]

/-! ### The generated file -/

/-- Functions and variables, in file order. -/
def GFile.code (f : GFile) : List GBlock := f.bs.filter fun b => b.ty = .func || b.ty = .var

/-- The other blocks, in file order. -/
def GFile.others (f : GFile) : List GBlock := f.bs.filter fun b => b.ty = .other

/-- The original `b0` is followed by its end label, the renamed code of `b1` and a record that names both. -/
def Replaced (o : GenOpts) (L : GSt) (r : Renames) (out : List Out) (b0 b1 : GBlock) : Prop :=
  ∃ pre post code nr, out = pre ++ verbatim L.f0 false b0 ++
      [.text (lit "\t.text\n"), .label (b0.name.text ++ lit ".Lfe"), .text (lit "#---------- kpatch begin ---------\n")] ++ code ++
      [.text (lit "\n"), .info ⟨nr, b1.name.text, b1.name.text ++ lit ".kpatch", some b0.name.text⟩] ++ post ∧
    IsCode (L.f1.withRen r) ⟨true, o.gotpcrel⟩ b1 code

/-- The renamed code of `b1` is written with a record without original. -/
def Added (o : GenOpts) (L : GSt) (r : Renames) (out : List Out) (b1 : GBlock) : Prop :=
  ∃ pre post code nr, out = pre ++ code ++
      [.text (lit "\n"), .info ⟨nr, b1.name.text, renamed (L.f1.withRen r) b1.name, none⟩] ++ post ∧
    IsCode (L.f1.withRen r) ⟨true, o.gotpcrel⟩ b1 code

/-- The renamed data of `b1` are written. -/
def AddedData (L : GSt) (r : Renames) (out : List Out) (b1 : GBlock) : Prop :=
  ∃ pre post code, out = pre ++ code ++ post ∧ IsCode (L.f1.withRen r) ⟨true, false⟩ b1 code

/-- The options say that a change of the symbol is to be ignored. -/
def Listed (o : GenOpts) (L : GSt) (b0 b1 : GBlock) : Prop :=
  ignoredSym o L.f1.basename b1.human .func = true ∨ (b0.ty = .var ∧ ignoredSym o L.f1.basename b0.human .var = true)

/-- Symbols of the new file are renamed only to a new symbol made from their name, or to the name that the symbol has in
the old file. -/
def Justified (L : GSt) (P : Corresp) (r : Renames) : Prop :=
  ∀ (nm : Kpstr) (d : Rename), nm.l ≤ nm.s.length → renameFind r nm = some d → d.dst = nm.text ++ lit ".kpatch" ++ [0#8] ∨
    ∃ b0 ∈ L.f0.bs, ∃ b1 ∈ L.f1.bs, P b0.start = some b1.start ∧ nm.text = b1.name.text ∧ d.dst = b0.name.text

/-- Every function and variable has a name. -/
def GFile.Named (f : GFile) : Prop := ∀ b ∈ f.bs, b.ty = .func ∨ b.ty = .var → b.name.text ≠ []

/-- The same statement in a section of the same name. -/
def SameLine (a b : Ln) : Prop := a.text = b.text ∧ a.dir = b.dir ∧ a.sect.name = b.sect.name

/-- The text is a label in the block. -/
def GFile.HasLabel (f : GFile) (b : GBlock) (t : List Byte) : Prop := ∃ l ∈ f.labels b, firstTok l.text = t

/-- Names that compilers make up for strings, warnings and the like. -/
def compilerName (t : List Byte) : Bool :=
  [lit ".LC", lit "warned.", lit "__warned.", lit "__func__.", lit "descriptor."].any fun p => p.isPrefixOf t

/-- What the token `t` of the function `B0` of the old file and `B1` of the new file stands for is the same in both: it is no
symbol of the files, or a label of this function only, or the name of a function or variable in both files.  Such a name must
not be made by the compiler, nor may it be the base name of another symbol or a label elsewhere. -/
inductive SameMeaning (L : GSt) (B0 B1 : GBlock) (t : List Byte) : Prop where
  | external : (∀ b ∈ L.f0.bs, (b.name.text ≠ t ∨ t = []) ∧ ¬ L.f0.HasLabel b t) →
      (∀ b ∈ L.f1.bs, (b.name.text ≠ t ∨ t = []) ∧ ¬ L.f1.HasLabel b t) → SameMeaning L B0 B1 t
  | label : (∀ b ∈ L.f0.bs, b.name.text ≠ t ∧ (L.f0.HasLabel b t → b = B0)) →
      (∀ b ∈ L.f1.bs, b.name.text ≠ t ∧ (L.f1.HasLabel b t → b = B1)) → SameMeaning L B0 B1 t
  | name (c0 c1 : GBlock) : c0 ∈ L.f0.bs → c1 ∈ L.f1.bs → c0.name.text = t → c1.name.text = t → c0.ty = c1.ty →
      c0.ty = .func ∨ (c0.ty = .var ∧ compilerName c0.name.text = false) → c0.auto = false → t ≠ [] →
      (∀ b ∈ L.f0.bs, L.f0.HasLabel b t → b = c0) → (∀ b ∈ L.f1.bs, L.f1.HasLabel b t → b = c1) →
      (∀ b ∈ L.f0.bs, b.auto = true → b.human.text ≠ c1.human.text) → SameMeaning L B0 B1 t

/-- The output has no record of a replacement of `b0` by `b1`, and no statement of `b1`. -/
def NotReplaced (out : List Out) (b0 b1 : GBlock) : Prop :=
  (∀ r ∈ recordsOf out, r.name ≠ b1.name.text ∧ r.target ≠ some b0.name.text) ∧
  ∀ i t sep, Out.line true i t sep ∈ out → ¬ (b1.start ≤ i ∧ i < b1.stop)

/-- A file of text: no NUL. -/
def GenInput.IsText (i : GenInput) : Prop := ∀ l ∈ i.lines, 0#8 ∉ l

end Verif
