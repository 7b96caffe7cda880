import Verif.Model.Sections
import Verif.Spec.Dbgfilter
/-
Specification of section tracking: what the assembler does with the section directives.
-/
namespace Verif

variable [AsmTarget]

/-- What a line asks for. -/
inductive SectCmd where
  | nothing
  /-- Switch to the section with this name. -/
  | goto (name : List Byte)
  /-- Push the current and previous section on the stack and switch. -/
  | push (name : List Byte)
  /-- Go back to the sections on top of the stack. -/
  | pop
  /-- Exchange current and previous section. -/
  | previous
  /-- Another subsection of the current section. -/
  | subsection
deriving DecidableEq, Repr

/-- The section name of a `.section` line: the word after the directive, which ends at a blank, `,` or `;`. -/
def sectionWord (line : List Byte) : Kpstr × Option (List Byte) := getTokenD sectDelims (getToken (some line)).2

/-- What the line asks for, by its first word. -/
def sectCmd (line : List Byte) : SectCmd :=
  let w := firstTok line
  if w = lit ".text" ∨ w = lit ".data" ∨ w = lit ".bss" then .goto w
  else if w = lit ".section" then .goto (unquoteName (sectionWord line).1)
  else if w = lit ".pushsection" then .push (unquoteName (sectionWord line).1)
  else if w = lit ".popsection" then .pop
  else if w = lit ".previous" then .previous
  else if w = lit ".subsection" then .subsection
  else .nothing

/-- The assembler: current section, previous section, stack of both. -/
structure AsState where
  cur : List Byte
  prev : Option (List Byte)
  stack : List (List Byte × Option (List Byte))

/-- `.previous` and `.popsection` with nothing to go back to are ignored with a warning. -/
def AsState.step (st : AsState) : SectCmd → AsState
  | .nothing => st
  | .goto n => ⟨n, some st.cur, st.stack⟩
  | .push n => ⟨n, some st.cur, (st.cur, st.prev) :: st.stack⟩
  | .pop => match st.stack with
    | [] => st
    | (c, p) :: r => ⟨c, p, r⟩
  | .previous => match st.prev with
    | none => st
    | some p => ⟨p, some st.cur, st.stack⟩
  | .subsection => ⟨st.cur, some st.cur, st.stack⟩

/-- The section of every line, the directive itself counted to the section it switches to. -/
def asSections (st : AsState) : List SectCmd → List (List Byte)
  | [] => []
  | c :: cs => (st.step c).cur :: asSections (st.step c) cs

/-- Pushes and pops are flat: of the section commands, after every push comes its pop, there is no other pop, and
`.previous` does not come directly after a pop.  `last` is the section command before. -/
def FlatCmds (last : SectCmd) : List SectCmd → Prop
  | [] => True
  | .nothing :: cs => FlatCmds last cs
  | .pop :: cs => (∃ n, last = .push n) ∧ FlatCmds .pop cs
  | c :: cs => (∀ n, last ≠ .push n) ∧ (c = .previous → last ≠ .pop) ∧ FlatCmds c cs

/-- The sections known from the start that hold code. -/
def knownCode : List (List Byte) :=
  [lit ".text", lit ".text.hot", lit ".text.unlikely", lit ".init.text", lit ".exit.text", lit ".fixup",
   lit ".altinstr_replacement", lit ".kpatch.text", lit ".discard"]

/-- The sections known from the start that hold data. -/
def knownData : List (List Byte) :=
  [lit ".data", lit ".bss", lit ".init.data", lit ".modinfo", lit "__ex_table", lit "__bug_table", lit ".altinstructions",
   lit ".smp_locks", lit ".parainstructions", lit "__jump_table", lit ".kpatch.init.pre", lit ".kpatch.init",
   lit ".kpatch.init.post", lit ".kpatch.exit.pre", lit ".kpatch.exit", lit ".kpatch.exit.post", lit "__ksymtab",
   lit "__ksymtab_gpl", lit "__kcrctab", lit "__kcrctab_gpl", lit "__kstrtab"]

/-- The line names section `n` in a `.section` or `.pushsection` directive. -/
def Names (n : List Byte) (line : List Byte) : Prop :=
  (firstTok line = lit ".section" ∨ firstTok line = lit ".pushsection") ∧ unquoteName (sectionWord line).1 = n

/-- The directive has a flag string, and in it an `x`: after the name there is a comma, then a quote, then an `x`
before the next quote. -/
def HasXFlag (line : List Byte) : Prop :=
  ∃ r t r2, (sectionWord line).2 = some r ∧ getToken (some r) = (t, r2) ∧ t.text = lit "," ∧
    ∃ f q, (getToken r2).1.s = 34#8 :: f ++ 120#8 :: q ∧ 34#8 ∉ f

end Verif
