import Verif.Model.Cc
/-
The compiler wrapper, `src/kpatch_cc.c`, with the tools it runs: the compiler and `kpatch_gensrc` are
arbitrary functions of their arguments and the files, and what they answer is the status `waitpid` gives.
Modelled: `run_cmd`, `run_gensrc`, `do_dbgfilter`, `do_generate_kpatch`, `compile_single`,
`build_multiple`, `emulate_cc`, `get_assembler_filename`, and the array of input files in `modify_args`.

Simplified: files are named by strings (no links, no working directory), `copy_file` copies everything
(see C53), `access` fails only because there is no file, and lengths (`PATH_MAX`) and debug output are left out.
-/
namespace Verif

/-- The files: what each name holds, if it exists. Used at `src/kpatch_cc.c:635-922`. -/
abbrev CcFiles := CStr → Option (List Byte)

/-- What the tools do: the wait status and the files afterwards.  `renameFails`: may `rename` fail.
`src/kpatch_cc.c:650-660` (run_cmd), `src/kpatch_cc.c:707`, `src/kpatch_cc.c:777`. -/
structure CcTools where
  gcc : List CStr → CcFiles → Nat × CcFiles
  gensrc : List CStr → CcFiles → Nat × CcFiles
  renameFails : CStr → CStr → CcFiles → Bool

/-- A tool run. `src/kpatch_cc.c:635-673`. -/
inductive CcCall where
  | gcc (argv : List CStr)
  | gensrc (argv : List CStr)
  deriving DecidableEq, Repr

/-- The files, and the tools run so far with their wait statuses. `src/kpatch_cc.c:650-660` (run_cmd). -/
structure CcW where
  files : CcFiles
  log : List (CcCall × Nat)

/-- Go on, or leave the wrapper with an exit status. `src/kpatch_cc.c:785-942`. -/
inductive CcRes (α : Type) where
  | ok (a : α) (w : CcW)
  | stop (status : Nat) (w : CcW)

/-- The environment, with what the generation of patches uses; `asmDir` is `KPATCH_ASM_DIR` with the
function `realpath`. `src/kpatch_cc.c:91-104`, `src/kpatch_cc.c:267-285`, `src/kpatch_cc.c:343-344`. -/
structure CcEnvB extends CcEnv where
  /-- is the stage `patched` (otherwise `original`) -/
  patched : Bool
  pfx : CStr := lit ".kpatch_"
  asmDir : Option (CStr × (CStr → CStr)) := none
  dbgArgs : List CStr
  patchArgs : List CStr

/-- `kpatch_stage` for the two stages in which files are rewritten. `src/kpatch_cc.c:280-285`. -/
def CcEnvB.stageName (e : CcEnvB) : CStr := if e.patched then lit "patched" else lit "original"

/-- `WEXITSTATUS`. `src/kpatch_cc.c:659`. -/
def wexit (status : Nat) : Nat := (status / 256) % 256

/-- `run_cmd(argv, NULL)` and the `if (rv) return rv` after it, `src/kpatch_cc.c` 635-661. -/
def runGcc (t : CcTools) (argv : List CStr) (w : CcW) : CcRes Unit :=
  let r := t.gcc argv w.files
  let w' : CcW := ⟨r.2, w.log ++ [(.gcc argv, r.1)]⟩
  if wexit r.1 = 0 then .ok () w' else .stop (wexit r.1) w'

/-- `run_gensrc` and the `if (rv) return rv` after it, `src/kpatch_cc.c` 663-673. -/
def runGensrc (t : CcTools) (argv : List CStr) (w : CcW) : CcRes Unit :=
  let r := t.gensrc argv w.files
  let w' : CcW := ⟨r.2, w.log ++ [(.gensrc argv, r.1)]⟩
  if wexit r.1 = 0 then .ok () w' else .stop (wexit r.1) w'

/-- `rename`; -1 becomes the exit status 255. `src/kpatch_cc.c:707`, `src/kpatch_cc.c:777`. -/
def ccRename (t : CcTools) (a b : CStr) (w : CcW) : CcRes Unit :=
  if t.renameFails a b w.files ∨ w.files a = none then .stop 255 w
  else .ok () ⟨fun n => if n = b then w.files a else if n = a then none else w.files n, w.log⟩

/-- `copy_file`, `src/kpatch_cc.c` 995-1047: without the file, `kpccfatal` (129). -/
def ccCopy (a b : CStr) (w : CcW) : CcRes Unit :=
  match w.files a with
  | none => .stop 129 w
  | some c => .ok () ⟨fun n => if n = b then some c else w.files n, w.log⟩

/-- One step after another, as long as none ends the run. `src/kpatch_cc.c:699-707` and alike. -/
def CcRes.andThen {α β : Type} : CcRes α → (α → CcW → CcRes β) → CcRes β
  | .ok a w, k => k a w
  | .stop s w, _ => .stop s w

/-- `do_dbgfilter`, `src/kpatch_cc.c` 675-710. -/
def doDbgfilter (e : CcEnvB) (t : CcTools) (aspath : CStr) (w : CcW) : CcRes Unit :=
  if e.dbgArgs = [] then .ok () w
  else
    (runGensrc t ([lit "kpatch_gensrc"] ++ e.dbgArgs ++ [lit "-i", aspath, lit "-o", aspath ++ lit ".tmp"]) w).andThen
      fun _ w => ccRename t (aspath ++ lit ".tmp") aspath w

/-- `do_generate_kpatch`, `src/kpatch_cc.c` 712-783: the name of the assembler file with the patch. -/
def doGenerateKpatch (e : CcEnvB) (t : CcTools) (aspath : CStr) (w : CcW) : CcRes CStr :=
  let stem := aspath.take (aspath.length - 10)
  let orig := stem ++ lit ".original.s"
  let tmp := stem ++ lit ".s.tmp"
  (if w.files orig = none then .ok (lit "/dev/null") w
    else (doDbgfilter e t orig w).andThen fun _ w => .ok orig w).andThen fun origname w =>
  (doDbgfilter e t aspath w).andThen fun _ w =>
  (runGensrc t ([lit "kpatch_gensrc"] ++ e.patchArgs ++
      [lit "-i", origname, lit "-i", aspath, lit "-o", tmp]) w).andThen fun _ w =>
  (ccRename t tmp (stem ++ lit ".s") w).andThen fun _ w => .ok (stem ++ lit ".s") w

/-- `dirname` of a name with a `/` in it, of one slash at a time: `/` for a file in the root, what precedes
the last `/` otherwise.  C library; used at `src/kpatch_cc.c:1101`. -/
def dirName (a : CStr) : CStr :=
  let d := (a.reverse.dropWhile (· ≠ 47#8)).drop 1
  if d = [] then [47#8] else d.reverse

/-- `get_assembler_filename`, `src/kpatch_cc.c` 1083-1127; `out` is `output_file`. -/
def asmName (e : CcEnvB) (out src : CStr) : CStr :=
  let p := if src = [45#8] then out else src
  let d := if 47#8 ∈ p then dirName p else lit "."
  match e.asmDir with
  | none => d ++ lit "/" ++ e.pfx ++ baseName p ++ lit "." ++ e.stageName ++ lit ".s"
  | some (dir, realpath) => dir ++ realpath d ++ lit "/" ++ e.pfx ++ baseName p ++ lit "." ++ e.stageName ++ lit ".s"

/-- The step of both drivers for the `patched` stage, `src/kpatch_cc.c` 818-822 and 912-916: the assembler
file to go on with. -/
def stageStep (e : CcEnvB) (t : CcTools) (aspath : CStr) (w : CcW) : CcRes CStr :=
  if e.patched then doGenerateKpatch e t aspath w else .ok aspath w

/-- `compile_single`, `src/kpatch_cc.c` 785-847. -/
def compileSingleW (e : CcEnvB) (t : CcTools) (act : CcAction) (argv : List CStr) (x : CcIdx) (out : CStr) (w : CcW) :
    CcRes Unit :=
  let as1 := asmName e out out
  let argv1 := match act with
    | .compileAsmCpp => argv.set x.action (lit "-E")
    | .generateAsm => argv
    | _ => argv.set x.action (lit "-S")
  (if act = .compileAsm then ccCopy ((argv1[x.input]?).getD []) as1 w
    else runGcc t (argv1 ++ [dashO, as1]) w).andThen fun _ w =>
  (stageStep e t as1 w).andThen fun as2 w =>
  if act = .generateAsm then ccCopy as2 out w
  else
    let argv2 := (argv1.set x.action (lit "-c")).set x.input as2
    let lang := (argv2[x.lang]?).getD []
    let argv3 := if x.lang = 0 then argv2
      else argv2.set x.lang (if argAt lang 0 = 45#8 then lit "-xassembler" else lit "assembler")
    runGcc t (argv3 ++ [dashO, out]) w

/-- The array `input_files` as filled by `init`: positions beyond the `argc` allocated entries hold whatever is
in memory there. `src/kpatch_cc.c:349-353`, `src/kpatch_cc.c:433-440`. -/
def inputArray (args : List CStr) (st : CcScan) (heap : Nat → Option CStr) (k : Nat) : Option CStr :=
  if k ≤ args.length then (if k ∈ st.inputs then argPosM args k else none) else heap k
where
  /-- `argv[k]`. `src/kpatch_cc.c:355` -/
  argPosM (args : List CStr) (k : Nat) : Option CStr := if k = 0 then none else args[k - 1]?

/-- What the compaction in `modify_args` does to `input_files`, `src/kpatch_cc.c` 594-619. -/
def compactInputs : List (Option CStr) → Nat → Nat → (Nat → Option CStr) → (Nat → Option CStr)
  | [], _, _, f => f
  | none :: t, i, j, f => compactInputs t i (j + 1) f
  | some _ :: t, i, j, f =>
    compactInputs t (i + 1) (j + 1)
      (if i ≠ j then fun k => if k = j then none else if k = i then f j else f k else f)

/-- The body of the loop over the input files in `build_multiple`, `src/kpatch_cc.c` 875-918: what takes the
place of the input `f`. `others`: the arguments that are no input files. -/
def buildInput (e : CcEnvB) (t : CcTools) (others : List CStr) (lang out f : CStr) (w : CcW) : CcRes CStr :=
  let as1 := asmName e out f
  match getFileType lang f with
  | .obj => .ok f w
  | .asm =>
    if e.gensrcAsm = false then .ok f w
    else (ccCopy f as1 w).andThen fun _ w => stageStep e t as1 w
  | .asmCpp =>
    if e.gensrcAsm = false then .ok f w
    else (runGcc t (others ++ [lit "-E", f, dashO, as1]) w).andThen fun _ w => stageStep e t as1 w
  | .src => (runGcc t (others ++ [lit "-S", f, dashO, as1]) w).andThen fun _ w => stageStep e t as1 w
  | .devNull => stageStep e t as1 w

/-- The loop over the arguments in `build_multiple`, `src/kpatch_cc.c` 875-924: each argument with its entry in
`input_files`; the arguments of the last command. -/
def buildInputs (e : CcEnvB) (t : CcTools) (others : List CStr) (lang out : CStr) :
    List (CStr × Option CStr) → CcW → CcRes (List CStr)
  | [], w => .ok [] w
  | (a, none) :: l, w =>
    (buildInputs e t others lang out l w).andThen fun r w => .ok (a :: r) w
  | (_, some f) :: l, w =>
    (buildInput e t others lang out f w).andThen fun b w =>
    (buildInputs e t others lang out l w).andThen fun r w => .ok (b :: r) w

/-- `build_multiple`, `src/kpatch_cc.c` 849-942; `inp` is `input_files`, `nin` is `ninput_files`. -/
def buildMultipleW (e : CcEnvB) (t : CcTools) (argv : List CStr) (inp : Nat → Option CStr) (nin : Nat)
    (lang out : CStr) (w : CcW) : CcRes Unit :=
  let newargc := argv.length + 5 - nin
  let others := (((argv.zipIdx).filter fun p => (inp p.2).isNone).map Prod.fst).take newargc
  if others.length + 4 ≥ newargc then .stop 129 w
  else
    (buildInputs e t others lang out ((argv.tail.zipIdx 1).map fun p => (p.1, inp p.2)) w).andThen fun r w =>
    runGcc t (argv.take 1 ++ r ++ [dashO, out]) w

/-- How the wrapper ends: it becomes the compiler, or exits. `src/kpatch_cc.c:944-976` (emulate_cc). -/
inductive CcEnd where
  | exec (argv : List CStr)
  | exit (status : Nat) (w : CcW)

/-- The end of a run that left with a status, or with 0. `src/kpatch_cc.c:956-975`. -/
def CcRes.end_ : CcRes Unit → CcEnd
  | .ok _ w => .exit 0 w
  | .stop s w => .exit s w

/-- `main`, `emulate_cc`, `src/kpatch_cc.c` 944-988, after `init`. `heap`: what is in memory behind `input_files`. -/
def ccMain (e : CcEnvB) (t : CcTools) (heap : Nat → Option CStr) (args : List CStr) (files : CcFiles) : CcEnd :=
  if e.configure ∨ (args.any fun a => hasSub a (lit "conftest.") || hasSub a (lit "qemu-conf")) then
    .exec (e.realgcc :: args)
  else
    let st := ccDecide e.toCcEnv args
    let out := st.output.getD []
    let r := ccModify e.toCcEnv args st
    match st.action with
    | .passthrough => .exec (e.realgcc :: args)
    | .buildMultiple =>
      let inp := compactInputs (ccNullify e.removeArgs (nullArgv args st.nulls)) 1 1 (inputArray args st heap)
      (buildMultipleW e t r.1 inp st.inputs.length ((r.1[r.2.lang]?).getD []) out ⟨files, []⟩).end_
    | act => (compileSingleW e t act r.1 r.2 out ⟨files, []⟩).end_

end Verif
