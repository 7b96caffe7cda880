import Verif.Model.Kpstr
import Verif.Model.Symbols
import Verif.Model.Bytes
/-
The compiler wrapper, `src/kpatch_cc.c`: splitting the modifier lists, the scan of the command line, the
rewriting of the arguments, the commands run for a single compilation, and the file copy.

A command line is the list of its arguments; position 0 is the program.  `argv[i] = NULL` is `none`.
Environment variables are parameters.  Not modelled: the length limits (`PATH_MAX`, `MAX_MODIFY_ARGS`),
the names of the intermediate files (parameters) and messages; `build_multiple` is in `Verif.Model.CcBuild`.
-/
namespace Verif

/-! ### Modifier lists -/

/-- `strtok(.., ";")` run to the end, `src/kpatch_cc.c` 181-196: the tokens with their addresses.  `base` is
the address of the first byte of `s`, `tok`/`start` the token being collected. -/
def splitArgsGo : CStr → Nat → CStr → Nat → List (Nat × CStr)
  | [], _, tok, start => if tok = [] then [] else [(start, tok)]
  | c :: cs, base, tok, start =>
    if c = 59#8 then
      if tok = [] then splitArgsGo cs (base + 1) [] 0
      else (start, tok) :: splitArgsGo cs (base + 1) [] 0
    else if tok = [] then splitArgsGo cs (base + 1) [c] base
    else splitArgsGo cs (base + 1) (tok ++ [c]) start

/-- `split_args`, `src/kpatch_cc.c` 181-196, for lists within `MAX_MODIFY_ARGS`. -/
def splitArgs (s : CStr) (base : Nat) : List (Nat × CStr) := splitArgsGo s base [] 0

/-- What `qsort(remove_args, .., strcmp)` compares, `src/kpatch_cc.c` 311-312: `strcmp` is given the
addresses of the array elements, so it compares the bytes of the pointers (little-endian, up to the first
zero byte), not the strings. -/
def cmpPointers (a b : Nat × CStr) : Int := strcmp (cstr (leBytes 8 a.1)) (cstr (leBytes 8 b.1))

/-! ### The scan of the command line -/

/-- The actions of `src/kpatch_cc.c` 122-133. -/
inductive CcAction where
  | error | passthrough | showVersion | showV | cpp | compileSingle | compileAsm | compileAsmCpp
  | generateAsm | buildMultiple
  deriving DecidableEq, Repr

/-- The variables set by the scan of `init`; positions as in the C code, 0: not set. `src/kpatch_cc.c:146-163`. -/
structure CcScan where
  action : CcAction
  nulls : List Nat := []
  inputs : List Nat := []
  idxInput : Nat := 0
  idxAction : Nat := 0
  idxLang : Nat := 0
  output : Option CStr := none
  deriving DecidableEq, Repr

/-- Byte `n` of an argument, 0 at its end (`arg[n]`). Used at `src/kpatch_cc.c:350-400`. -/
def argAt (a : CStr) (n : Nat) : Byte := (a[n]?).getD 0#8

/-- The loop of `init`, `src/kpatch_cc.c` 351-421, over the arguments from position `i` on. -/
def ccScan : List CStr → Nat → CcScan → CcScan
  | [], _, st => st
  | a :: rest, i, st =>
    if argAt a 0 ≠ 45#8 ∨ argAt a 1 = 0#8 then
      ccScan rest (i + 1) { st with inputs := i :: st.inputs, idxInput := i }
    else if argAt a 1 = 73#8 then                                           -- 'I'
      if argAt a 2 = 0#8 then ccScan (rest.drop 1) (i + 2) st else ccScan rest (i + 1) st
    else if argAt a 1 = 120#8 then                                          -- 'x'
      if argAt a 2 = 0#8 then ccScan (rest.drop 1) (i + 2) { st with idxLang := i + 1 }
      else ccScan rest (i + 1) { st with idxLang := i }
    else if argAt a 1 = 99#8 then                                           -- 'c'
      ccScan rest (i + 1) { st with action := .compileSingle, idxAction := i }
    else if argAt a 1 = 83#8 then                                           -- 'S'
      ccScan rest (i + 1) { st with action := .generateAsm, idxAction := i }
    else if argAt a 1 = 69#8 then                                           -- 'E'
      ccScan rest (i + 1) { st with action := .cpp }
    else if argAt a 1 = 111#8 then                                          -- 'o'
      if argAt a 2 = 0#8 then
        ccScan (rest.drop 1) (i + 2) { st with nulls := (i + 1) :: i :: st.nulls, output := rest.head? }
      else ccScan rest (i + 1) { st with nulls := i :: st.nulls, output := some (a.drop 2) }
    else if argAt a 1 = 77#8 then                                           -- 'M'
      if argAt a 2 = 70#8 ∨ argAt a 2 = 84#8 ∨ argAt a 2 = 81#8 then ccScan (rest.drop 1) (i + 2) st
      else ccScan rest (i + 1) st
    else if argAt a 1 = 105#8 then                                          -- 'i'
      if a.drop 2 = lit "nclude" ∨ a.drop 2 = lit "system" ∨ a.drop 2 = lit "quote" then
        ccScan (rest.drop 1) (i + 2) st
      else ccScan rest (i + 1) st
    else if argAt a 1 = 101#8 ∨ argAt a 1 = 84#8 then ccScan (rest.drop 1) (i + 2) st   -- 'e', 'T'
    else if argAt a 1 = 45#8 then                                           -- '-'
      if a.drop 2 = lit "version" then ccScan rest (i + 1) { st with action := .showVersion }
      else ccScan rest (i + 1) st
    else ccScan rest (i + 1) st
  termination_by l => l.length
  decreasing_by all_goals simp_all <;> omega

/-- The file types of `get_file_type`. `src/kpatch_cc.c:198-204`. -/
inductive CcFile where
  | src | asm | asmCpp | obj | devNull
  deriving DecidableEq, Repr

/-- `strrchr(arg, '.') + 1`. `src/kpatch_cc.c:230`. -/
def extOf (a : CStr) : Option CStr :=
  if 46#8 ∈ a then some ((a.reverse.takeWhile (· ≠ 46#8)).reverse) else none

/-- `get_file_type`, `src/kpatch_cc.c` 211-252; `lang` is `argv[idxlang_arg]`. -/
def getFileType (lang a : CStr) : CcFile :=
  if a = [45#8] then
    let l := if argAt lang 0 = 45#8 then lang.drop 2 else lang
    if l = lit "assembler" then .asm else if l = lit "assembler-with-cpp" then .asmCpp else .src
  else if a = lit "/dev/null" then .devNull
  else
    match extOf a with
    | none => .obj
    | some e =>
      if e = lit "s" then .asm
      else if argAt e 0 = 83#8 ∧ (argAt e 1 = 0#8 ∨ (argAt e 2 = 120#8 ∧ argAt e 3 = 0#8)) then .asmCpp
      else if e ∈ [lit "c", lit "cp", lit "cpp", lit "cxx", lit "c++", lit "C", lit "CPP"] then .src
      else .obj

/-- `basename`: what follows the last `/`. C library; used at `src/kpatch_cc.c:445` and `src/kpatch_cc.c:1097`. -/
def baseName (a : CStr) : CStr := (a.reverse.takeWhile (· ≠ 47#8)).reverse

/-- The name made up for the output when there is no `-o`, `src/kpatch_cc.c` 444-458: the last character of
the input's name is replaced. -/
def defaultOutput (act : CcAction) (input : CStr) : CStr :=
  (baseName input).dropLast ++ [if act = .compileSingle then 111#8 else 115#8]

/-- The environment as far as the model uses it. `src/kpatch_cc.c:269-344`. -/
structure CcEnv where
  realgcc : CStr
  configure : Bool := false
  gensrcAsm : Bool := false
  /-- `remove_args` as left by `qsort` -/
  removeArgs : List CStr
  appendArgs : List CStr

/-- The decisions of `init` after the scan, `src/kpatch_cc.c` 423-488. -/
def ccDecide (e : CcEnv) (args : List CStr) : CcScan :=
  let st := ccScan args 1 { action := if args = [lit "-v"] then .showV else .passthrough }
  let nin := st.inputs.length
  let act1 := if nin > 1 ∧ (st.action = .compileSingle ∨ st.action = .generateAsm) then .error else st.action
  let act2 := if nin ≠ 0 ∧ act1 = .passthrough then .buildMultiple else act1
  let act3 := if act2 = .error ∨ act2 = .showVersion ∨ act2 = .showV ∨ act2 = .cpp then .passthrough else act2
  let input := ((e.realgcc :: args)[st.idxInput]?).getD []
  let out := if (act3 = .compileSingle ∨ act3 = .generateAsm) ∧ st.output = none ∧ input ≠ [45#8] then
      some (defaultOutput act3 input) else st.output
  let act4 := if out = none then .passthrough else act3
  let act5 := if out = some (lit "/dev/null") then .passthrough else act4
  let lang := ((e.realgcc :: args)[st.idxLang]?).getD []
  let act6 := if act5 = .compileSingle then
      match getFileType lang input with
      | .asm => .compileAsm
      | .asmCpp => .compileAsmCpp
      | .devNull => .passthrough
      | _ => .compileSingle
    else act5
  let act7 := if e.gensrcAsm = false ∧ (act6 = .compileAsm ∨ act6 = .compileAsmCpp) then .passthrough else act6
  { st with action := act7, output := out }

/-- `argv` after the scan: the arguments, with `NULL` in place of `-o` and its argument. `src/kpatch_cc.c:388-398`. -/
def nullArgv (args : List CStr) (nulls : List Nat) : List (Option CStr) :=
  args.mapIdx fun k a => if k + 1 ∈ nulls then none else some a

/-! ### Rewriting the arguments -/

/-- Is the argument to be removed, `src/kpatch_cc.c` 580-591: options are looked up by binary search. -/
def ccRemoved (removeArgs : List CStr) (a : CStr) : Bool :=
  if argAt a 0 ≠ 45#8 ∨ argAt a 1 = 0#8 then false
  else (bsearchName removeArgs a 0 removeArgs.length).isSome

/-- The first loop of `modify_args`, `src/kpatch_cc.c` 580-591. -/
def ccNullify (removeArgs : List CStr) (argv : List (Option CStr)) : List (Option CStr) :=
  argv.map fun
    | none => none
    | some a => if ccRemoved removeArgs a then none else some a

/-- The positions kept up to date while the arguments move. `src/kpatch_cc.c:154-162`, `src/kpatch_cc.c:609-614`. -/
structure CcIdx where
  input : Nat
  action : Nat
  lang : Nat
  deriving DecidableEq, Repr

/-- The three `if (idx.. == j) idx.. = i`, `src/kpatch_cc.c` 609-614. -/
def CcIdx.move (x : CcIdx) (i j : Nat) : CcIdx :=
  ⟨if x.input = j then i else x.input, if x.action = j then i else x.action, if x.lang = j then i else x.lang⟩

/-- The compaction loop of `modify_args`, `src/kpatch_cc.c` 593-619: `argv` from position `j` on, `i` the
place of the next argument kept (the entries already moved lie below `j`). -/
def ccCompact : List (Option CStr) → Nat → Nat → CcIdx → List CStr × CcIdx
  | [], _, _, x => ([], x)
  | none :: t, i, j, x => ccCompact t i (j + 1) x
  | some a :: t, i, j, x =>
    let r := ccCompact t (i + 1) (j + 1) (if i ≠ j then x.move i j else x)
    (a :: r.1, r.2)

/-- `modify_args`, `src/kpatch_cc.c` 575-633: the argument vector (with the program) and the positions. -/
def ccModify (e : CcEnv) (args : List CStr) (st : CcScan) : List CStr × CcIdx :=
  let r := ccCompact (ccNullify e.removeArgs (nullArgv args st.nulls)) 1 1 ⟨st.idxInput, st.idxAction, st.idxLang⟩
  (e.realgcc :: r.1 ++ e.appendArgs, r.2)

/-- The argument `-o`. `src/kpatch_cc.c:810`, `src/kpatch_cc.c:834`. -/
def dashO : CStr := lit "-o"

/-- The compiler runs of `compile_single`, `src/kpatch_cc.c` 781-840, when each succeeds: `as1` is the
assembler file asked from the compiler, `as2` the one it is given back (another name in the `patched`
stage). -/
def compileSingle (act : CcAction) (argv : List CStr) (x : CcIdx) (out as1 as2 : CStr) : List (List CStr) :=
  let argv1 := match act with
    | .compileAsmCpp => argv.set x.action (lit "-E")
    | .generateAsm => argv
    | _ => argv.set x.action (lit "-S")
  let first := if act = .compileAsm then [] else [argv1 ++ [dashO, as1]]
  if act = .generateAsm then first
  else
    let argv2 := (argv1.set x.action (lit "-c")).set x.input as2
    let lang := (argv2[x.lang]?).getD []
    let argv3 := if x.lang = 0 then argv2
      else argv2.set x.lang (if argAt lang 0 = 45#8 then lit "-xassembler" else lit "assembler")
    first ++ [argv3 ++ [dashO, out]]

/-- `main`/`emulate_cc`, `src/kpatch_cc.c` 932-990: the commands run (a passed-through command replaces the
wrapper).  `none`: `build_multiple`, not modelled. -/
def ccRun (e : CcEnv) (args : List CStr) (as1 as2 : CStr) : Option (List (List CStr)) :=
  if e.configure ∨ (args.any fun a => hasSub a (lit "conftest.") || hasSub a (lit "qemu-conf")) then
    some [e.realgcc :: args]
  else
    let st := ccDecide e args
    match st.action with
    | .passthrough => some [e.realgcc :: args]
    | .buildMultiple => none
    | act =>
      let r := ccModify e args st
      some (compileSingle act r.1 r.2 (st.output.getD []) as1 as2)

/-! ### Copying files -/

/-- What the kernel does with the next `read` or `write`. `src/kpatch_cc.c:1014` (read), `src/kpatch_cc.c:1027` (write). -/
inductive CopyEv where
  | intr
  | fail
  /-- a `read` that delivers up to this many bytes -/
  | rd (n : Nat)
  /-- a `write` that takes up to this many bytes -/
  | wr (n : Nat)
  deriving DecidableEq, Repr

/-- State of `copy_file`: what is left to read, the buffer (and the stack behind it), the output, and
within the inner loop the pair `r`, `w`. `src/kpatch_cc.c:995-1047` (copy_file). -/
structure CopySt where
  rest : List Byte
  buf : Nat → Byte
  out : List Byte
  phase : Option (Nat × Nat) := none

/-- The copy goes on, has returned 0, or has ended in `kpccfatal`; `stuck`: the event does not fit. `src/kpatch_cc.c:995-1047` (copy_file). -/
inductive CopyRes where
  | run (st : CopySt)
  | done (out : List Byte)
  | fatal
  | stuck

/-- `sizeof(buffer)`. `src/kpatch_cc.c:998`. -/
def copyBufSize : Nat := 4096

/-- One system call of `copy_file`, `src/kpatch_cc.c` 1012-1040.  The inner loop asks for `r` bytes from
`buffer + w`, whatever `w` is. -/
def copyStep (st : CopySt) : CopyEv → CopyRes
  | .intr => .run st
  | .fail => .fatal
  | .rd n =>
    match st.phase with
    | some _ => .stuck
    | none =>
      if st.rest = [] then .done st.out
      else
        let k := max 1 (min n (min copyBufSize st.rest.length))
        .run { rest := st.rest.drop k
               buf := fun i => if i < k then (st.rest[i]?).getD 0 else st.buf i
               out := st.out, phase := some (k, 0) }
  | .wr n =>
    match st.phase with
    | none => .stuck
    | some (r, w) =>
      let c := min n r
      let out := st.out ++ (List.range c).map fun i => st.buf (w + i)
      .run { st with out := out, phase := if w + c ≥ r then none else some (r, w + c) }

/-- `copy_file` under a sequence of kernel answers. `src/kpatch_cc.c:1011-1037` (copy_file). -/
def copyRun : CopyRes → List CopyEv → CopyRes
  | .run st, e :: es => copyRun (copyStep st e) es
  | r, _ => r

/-- `copy_file` of a file with the bytes `src`; `stack` are the bytes in and behind the uninitialised
buffer. `src/kpatch_cc.c:995-1047` (copy_file). -/
def copyFile (src : List Byte) (stack : Nat → Byte) (evs : List CopyEv) : CopyRes :=
  copyRun (.run ⟨src, stack, [], none⟩) evs

end Verif
