import Verif.Model.Gensrc
import Verif.Spec.Sections
/-
Specification of the output of the generator: what it means that a block is written.
-/
namespace Verif

variable [AsmTarget]

/-- The text of a statement of a file. -/
def GFile.textAt (f : GFile) (i : Nat) : List Byte := ((f.ls[i]?).map (·.text)).getD []

/-- What separates statement `i`, written as `txt`, from the next one: a newline if the next one is on another line of the
source, nothing after a label, else a semicolon. -/
def GFile.sepAt (f : GFile) (txt : List Byte) (i : Nat) : List Byte :=
  if f.nums.getD i 0 ≠ f.nums.getD (i + 1) 0 then [10#8]
  else if txt.getLast? = some 58#8 then []
  else [59#8, 32#8]

/-- The statements of a block, unchanged. -/
def verbatim (f : GFile) (new : Bool) (b : GBlock) : List Out :=
  b.range.map fun i => .line new i (f.textAt i) (f.sepAt (f.textAt i) i)

/-- The directive of a statement. -/
def GFile.dirAt (f : GFile) (i : Nat) : Option Dir := (f.ls[i]?).map (·.dir)

/-- Statements that change the section, and `.comm`, are not copied into the code of a patch: other commands take their
place. -/
def replacedDir (d : Option Dir) : Bool :=
  [Dir.text, .data, .bss, .pushsection, .sect, .popsection, .previous, .comm].any fun x => d == some x

/-- Statements of the new file with their symbols renamed: all but the ones that are replaced. -/
def renamedLines (f : GFile) (fl : WFlags) (b : GBlock) : List Out :=
  (b.range.filter fun i => !replacedDir (f.dirAt i)).filterMap fun i =>
    (lineText f fl (f.textAt i)).map fun s => .line true i s (f.sepAt s i)

/-- The statements of one file in the output. -/
def Out.isLine (new : Bool) : Out → Bool
  | .line n _ _ _ => n == new
  | _ => false

def linesOf (new : Bool) (out : List Out) : List Out := out.filter (Out.isLine new)

/-- The records of the output. -/
def Out.record : Out → Option InfoRec
  | .info r => some r
  | _ => none

def recordsOf (out : List Out) : List InfoRec := out.filterMap Out.record

/-! ### Sections of the output -/

/-- The section of a patch that holds what comes from a section of the new file: sections with a place of their own go
there, other code goes to `.kpatch.text` and other data to `.kpatch.data`. -/
def outPlace (s : SectInfo) : List Byte :=
  match s.outname with
  | some n => n
  | none => if s.exec then lit ".kpatch.text,\"ax\",@progbits" else lit ".kpatch.data,\"aw\",@progbits"

/-- What a piece of the code of a patch tells the assembler about sections.  Statements of the new file that change the
section are not copied, see `replacedDir`; `.subsection` stays in the section. -/
def Out.sectCmd : Out → SectCmd
  | .section true nm _ => .push nm
  | .section false nm _ => .goto nm
  | .pop => .pop
  | _ => .nothing

/-- The state of the assembler after the pieces. -/
def runOut : AsState → List Out → AsState
  | st, [] => st
  | st, o :: os => runOut (st.step o.sectCmd) os

/-- Every statement of the new file among the pieces is assembled into the section of the patch for its section. -/
def Placed (ls : List Ln) : AsState → List Out → Prop
  | _, [] => True
  | st, .line true i _ _ :: os => (∃ l, ls[i]? = some l ∧ st.cur = outPlace l.sect) ∧ Placed ls st os
  | st, o :: os => Placed ls (st.step o.sectCmd) os

/-- The section for the data of a patch. -/
def dataPlace : List Byte := lit ".kpatch.data,\"aw\",@progbits"

/-- The output asks for alignment to a page exactly where it first switches to the section for the data of the patch.
`seen`: it has done so before.  The result says whether it has done so at the end; `none`: alignment is wrong. -/
def alignRun : Bool → List Out → Option Bool
  | seen, [] => some seen
  | seen, .section _ nm al :: os =>
    if al = (decide (nm = dataPlace) && !seen) then alignRun (seen || decide (nm = dataPlace)) os else none
  | seen, _ :: os => alignRun seen os

/-- The directives after which the section is another one. -/
def switchDir (d : Dir) : Bool :=
  d = .text || d = .data || d = .bss || d = .pushsection || d = .sect || d = .popsection || d = .previous

/-- Statements that do not change the section are in the section of the statement before. -/
def SectionsRecorded (ls : List Ln) : Prop :=
  ∀ (i : Nat) (l l' : Ln), ls[i]? = some l → ls[i + 1]? = some l' → switchDir l'.dir = false → l'.sect = l.sect

/-- Zero bytes of data under a name: alignment, name, and bytes, in the section for the data of the patch; after it the section
is the one before.  No alignment is asked for if it is zero, and no bytes are written if there are none. -/
def zeroData (nm : List Byte) (sz al : Nat) (page : Bool) : List Out :=
  [.section true dataPlace page] ++ (if al = 0 then [] else [.text (lit "\t.align\t" ++ decText al ++ lit "\n")]) ++ [.label nm] ++
    (if sz = 0 then [] else [.text (lit "\t.zero\t" ++ decText sz ++ lit "\n")]) ++ [.pop]

/-- Every statement of the block is written in its renamed form, between the start of a section and its end, and in the
right section; after it the section is the one before. -/
structure IsCode (f : GFile) (fl : WFlags) (b : GBlock) (x : List Out) : Prop where
  lines : linesOf true x = renamedLines f fl b
  all : ∀ i, b.start ≤ i → i < b.stop → (lineText f fl (f.textAt i)).isSome ∨ replacedDir (f.dirAt i) = true
  noOld : linesOf false x = []
  noRecords : recordsOf x = []
  opened : ∃ nm al rest, x = .section true nm al :: rest
  closed : ∃ rest, x = rest ++ [.pop]
  placed : SectionsRecorded f.ls → ∀ st, Placed f.ls st x ∧ runOut st x = st
  comm : ∀ i, b.start ≤ i → i < b.stop → f.dirAt i = some .comm → ∃ nm sz al page pre post, commArgs (f.textAt i) = some (nm, sz, al) ∧
    x = pre ++ zeroData (if fl.ren then renamed f nm else nm.text) sz al page ++ post

end Verif
