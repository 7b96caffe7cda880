import Verif.Spec.Cc
import Verif.Model.CcBuild
/-
Specification of a build from several files, and of the exit status of the wrapper.
-/
namespace Verif

/-- The arguments of the runs of the real compiler, in order. -/
def gccRuns (log : List (CcCall × Nat)) : List (List CStr) :=
  log.filterMap fun p => match p.1 with
    | .gcc a => some a
    | .gensrc _ => none

/-- The names of the files made for an input all start with this: its directory (in `KPATCH_ASM_DIR`, if that
is given), the prefix and the name of the file.  The standard input is named after the output. -/
def asmStem (e : CcEnvB) (out f : CStr) : CStr :=
  let p := if f = lit "-" then out else f
  let dir := if 47#8 ∈ p then dirName p else lit "."
  (match e.asmDir with
    | none => dir
    | some (d, realpath) => d ++ realpath dir) ++ lit "/" ++ e.pfx ++ baseName p

/-- The assembler file compiled from an input. -/
def asmFile (e : CcEnvB) (out f : CStr) : CStr :=
  asmStem e out f ++ (if e.patched then lit ".patched.s" else lit ".original.s")

/-- The assembler file given to the last command in place of a rewritten input. -/
def linkedFile (e : CcEnvB) (out f : CStr) : CStr :=
  asmStem e out f ++ (if e.patched then lit ".s" else lit ".original.s")

/-- How an input is treated. -/
inductive Treatment where
  /-- left alone -/
  | asIs
  /-- compiled, with this option -/
  | compiled (opt : CStr)
  /-- copied -/
  | copied
  /-- nothing is done, but it is replaced -/
  | forgotten
  deriving DecidableEq

/-- By the kind of the file: sources are compiled, and assembler files are rewritten if asked for. -/
def treatment (gensrcAsm : Bool) : CcFile → Treatment
  | .src => .compiled (lit "-S")
  | .asmCpp => if gensrcAsm then .compiled (lit "-E") else .asIs
  | .asm => if gensrcAsm then .copied else .asIs
  | .obj => .asIs
  | .devNull => .forgotten

/-- The wait status of a process that has called `exit(c)`. -/
def exitedWith (c : Nat) : Nat := c * 256

/-- The wait status of a process killed by a signal, without core dump. -/
def killedBy (sig : Nat) : Nat := sig

/-- A tool that changes nothing but the file given last, with `-o`. -/
def OnlyOutput (tool : List CStr → CcFiles → Nat × CcFiles) : Prop :=
  ∀ argv o fs n, n ≠ o → (tool (argv ++ [lit "-o", o]) fs).2 n = fs n

/-- What the names of the files made for an input end in. -/
def madeSuffixes : List CStr :=
  [lit ".original.s", lit ".original.s.tmp", lit ".patched.s", lit ".patched.s.tmp", lit ".s", lit ".s.tmp"]

/-- One of the files made for the input `f`. -/
def MadeFor (e : CcEnvB) (out f n : CStr) : Prop := ∃ s ∈ madeSuffixes, n = asmStem e out f ++ s

/-- The directory of a file as the wrapper writes it: with `KPATCH_ASM_DIR` the resolved one. -/
def dirOf (e : CcEnvB) (p : CStr) : CStr :=
  let dir := if 47#8 ∈ p then dirName p else lit "."
  match e.asmDir with
  | none => dir
  | some (_, realpath) => realpath dir

/-- The arguments of a run of the filter for debug information. -/
def filterRun (e : CcEnvB) (n : CStr) : List CStr :=
  lit "kpatch_gensrc" :: e.dbgArgs ++ [lit "-i", n, lit "-o", n ++ lit ".tmp"]

/-- The contents of `n` after the filter has been run on the files `fs`; without arguments for it, it is not run. -/
def filtered (e : CcEnvB) (t : CcTools) (fs : CcFiles) (n : CStr) : Option (List Byte) :=
  if e.dbgArgs = [] then fs n else (t.gensrc (filterRun e n) fs).2 (n ++ lit ".tmp")

/-- The contents of the patch made from the original and the new assembler file. -/
def patchOf (e : CcEnvB) (t : CcTools) (fs : CcFiles) (orig new tmp : CStr) : Option (List Byte) :=
  (t.gensrc (lit "kpatch_gensrc" :: e.patchArgs ++ [lit "-i", orig, lit "-i", new, lit "-o", tmp]) fs).2 tmp

/-- The command that makes the assembler file `asm`: the user's arguments `kept`, with `opt` in place of the action (at
position `a`), and the arguments to append. -/
def firstCommand (e : CcEnvB) (kept : List (CStr × Nat)) (a : Nat) (opt : Option CStr) (asm : CStr) : List CStr :=
  e.realgcc :: kept.map (fun p => if p.2 = a then opt.getD p.1 else p.1) ++ e.appendArgs ++ [lit "-o", asm]

/-- The command that assembles: the user's arguments `kept`, with `-c` in place of the action (at position `a`), the file
`asm` in place of the input (at position `i`) and `assembler` in place of the language (at position `l`, if given), and
the arguments to append. -/
def secondCommand (e : CcEnvB) (kept : List (CStr × Nat)) (a i l : Nat) (asm out : CStr) : List CStr :=
  e.realgcc :: kept.map (fun p =>
      if p.2 = l then (if argAt p.1 0 = 45#8 then lit "-xassembler" else lit "assembler")
      else if p.2 = i then asm else if p.2 = a then lit "-c" else p.1)
    ++ e.appendArgs ++ [lit "-o", out]

/-- The contents `res` of the file that goes on to be assembled, for an input whose assembler text is `new`.  In the
`original` stage they are the same.  In the `patched` stage they are the patch made from two files, both passed through
the filter: the one the `original` stage has left (otherwise `/dev/null`), and `new`.  This is done on states of the
files in which everything not made by the wrapper is as in `files`. -/
def StageResult (e : CcEnvB) (t : CcTools) (files : CcFiles) (out f : CStr) (new res : Option (List Byte)) : Prop :=
  let asm := asmFile e out f
  let orig := asmStem e out f ++ lit ".original.s"
  let user := fun fs : CcFiles => ∀ n, ¬ MadeFor e out f n → fs n = files n
  if e.patched then
    ∃ fs1 fs2 fs3 : CcFiles, user fs1 ∧ user fs2 ∧ user fs3 ∧
      fs1 asm = new ∧ fs2 orig = files orig ∧
      fs3 asm = filtered e t fs1 asm ∧ (files orig ≠ none → fs3 orig = filtered e t fs2 orig) ∧
      res = patchOf e t fs3 (if files orig = none then lit "/dev/null" else orig) asm (asmStem e out f ++ lit ".s.tmp")
  else res = new

/-- The commands for a compilation of a single file, by what is to be done. -/
def singleCommands (e : CcEnvB) (kept : List (CStr × Nat)) (st : CcScan) (out : CStr) : List (List CStr) :=
  let first := fun opt => firstCommand e kept st.idxAction opt (asmFile e out out)
  let second := secondCommand e kept st.idxAction st.idxInput st.idxLang (linkedFile e out out) out
  match st.action with
  | .compileAsm => [second]
  | .compileAsmCpp => [first (some (lit "-E")), second]
  | .generateAsm => [first none]
  | _ => [first (some (lit "-S")), second]

/-- The assembler text of the input of a compilation of a single file: that of the file itself, if it is assembler
already, otherwise what the first command writes. -/
def singleText (e : CcEnvB) (t : CcTools) (kept : List (CStr × Nat)) (st : CcScan) (args : List CStr) (out : CStr)
    (files : CcFiles) : Option (List Byte) :=
  let first := fun opt => firstCommand e kept st.idxAction opt (asmFile e out out)
  match st.action with
  | .compileAsm => files (((args[st.idxInput - 1]?).getD []))
  | .compileAsmCpp => (t.gcc (first (some (lit "-E"))) files).2 (asmFile e out out)
  | .generateAsm => (t.gcc (first none) files).2 (asmFile e out out)
  | _ => (t.gcc (first (some (lit "-S"))) files).2 (asmFile e out out)

end Verif
