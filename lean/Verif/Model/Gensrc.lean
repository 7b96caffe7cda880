import Verif.Model.GenCmp
import Verif.Model.Dbgfilter
import Verif.Model.Gotpcrel
/-
Model of the comparison of two assembler files and of the assembler file with the patch generated from them,
src/kpatch_gensrc.c.  `none` as a result is kpfatal (or, where said so, an undefined step of the C program).
-/
namespace Verif

variable [AsmTarget]

/-! ### Options -/

/-- `struct sym_desc`.  src/kpatch_gensrc.c:36-39. -/
structure SymDesc where
  filename : Option (List Byte)
  sym : List Byte
deriving DecidableEq, Repr

/-- The options of the program, the text of the file of functions to patch if it can be opened, and the value of the
uninitialised field `adapted` of the block at each line. `src/kpatch_gensrc.c:23-52`, `src/kpatch_gensrc.c:1677-1753` (main). -/
structure GenOpts where
  os : GenOs
  arch32 : Bool
  ignoreSyms : List SymDesc
  unlinkSyms : List SymDesc
  mustAdapt : List SymDesc
  conf : Option (List Byte)
  gotpcrel : Bool
  global : Bool
  uninit : Nat → Bool

/-- The strings read from a file by `fgets` with a buffer of `n + 1` bytes; `acc` is the current one, reversed. `src/kpatch_gensrc.c:54-72` (is_func_in_patch_func_file). -/
def fgetsAll (n : Nat) (acc : List Byte) : List Byte → List (List Byte)
  | [] => if acc = [] then [] else [acc.reverse]
  | c :: r =>
    if c = 10#8 ∨ acc.length + 1 = n then (c :: acc).reverse :: fgetsAll n [] r
    else fgetsAll n (c :: acc) r

/-- src/kpatch_gensrc.c:54-73 (is_func_in_patch_func_file). -/
def inFuncFile (content : List Byte) (sym : Kpstr) : Bool :=
  if sym.l = 0 ∨ 1024 < sym.l then false
  else (fgetsAll 1023 [] content).any fun b => sym.text.isPrefixOf (cstr b)

/-- The loop over a symbol list.  `strncmp(filename, sym_arr[i].filename, len)` compares only the first `len` characters.
src/kpatch_gensrc.c:116-126 (in_syms_list). -/
def inSyms (filename : List Byte) (sym : Kpstr) (syms : List SymDesc) : Bool :=
  syms.any fun d => (d.filename.all fun n => n.isPrefixOf filename) && decide (kpstrcmpz sym d.sym = 0)

/-- in_syms_list with the list of ignored symbols: for functions the file of functions to patch comes first.
src/kpatch_gensrc.c:75-127 (in_syms_list). -/
def ignoredSym (o : GenOpts) (filename : List Byte) (sym : Kpstr) (ty : BType) : Bool :=
  match ty, o.conf with
  | .func, some content =>
    match content.head? with
    | none => inSyms filename sym o.ignoreSyms
    | some c => if c = 10#8 ∨ c = 32#8 then inSyms filename sym o.ignoreSyms else !inFuncFile content sym
  | _, _ => inSyms filename sym o.ignoreSyms

/-! ### Blocks -/

/-- The two files. `infile[2]`, `src/kpatch_gensrc.c:1681`. -/
structure GSt where
  f0 : GFile
  f1 : GFile

/-- The block that starts at a line. A pointer to a block is modelled as its start line, the key of `cblocks_by_start`, `src/include/kpatch_io.h:30`. -/
def GFile.at (f : GFile) (s : Nat) : Option GBlock := f.bs.find? fun b => b.start = s

/-- The tree `cblocks_by_name` has the first block of each name.  src/kpatch_parse.c:267-278 (cblock_find_by_name). -/
def GFile.find (f : GFile) (nm : Kpstr) : Option GBlock := f.bs.find? fun b => kpstrcmp b.name nm = 0

/-- The tree `cblocks_by_human_name` has the first block of each human name: rb_insert_node does not insert a node whose
key is there already.  src/kpatch_parse.c:280-299 (cblock_find_by_human_name). -/
def GFile.findHuman (f : GFile) (nm : Kpstr) : Option GBlock := f.bs.find? fun b => kpstrcmp b.human nm = 0

/-- A change of one block. Assignments through a pointer to a block, `src/include/kpatch_parse.h:84-105`. -/
def GFile.upd (f : GFile) (s : Nat) (g : GBlock → GBlock) : GFile :=
  { f with bs := f.bs.map fun b => if b.start = s then g b else b }

/-- The starts of the blocks of a type, in file order: the loops over cblock_first and cblock_next. For example `src/kpatch_gensrc.c:1045`, `src/kpatch_gensrc.c:1090`. -/
def GFile.starts (f : GFile) (ty : BType) : List Nat := (f.bs.filter fun b => b.ty = ty).map (·.start)

/-- The first block of a type at or after a line: `cblock_skip(cblock_next(b), ty)` with the line after the start of
`b`.  src/kpatch_parse.c:547-562. -/
def GFile.nextFrom (f : GFile) (s : Nat) (ty : BType) : Option Nat :=
  (f.bs.find? fun b => decide (s ≤ b.start) && decide (b.ty = ty)).map (·.start)

/-- The file with another tree of renames, `f->renames`, `src/include/kpatch_io.h:31`. -/
def GFile.withRen (f : GFile) (r : Renames) : GFile := { f with ren := r }

/-- `b0->pair = b1; b1->pair = b0`. `src/kpatch_gensrc.c:1058`, `src/kpatch_gensrc.c:1157`, `src/kpatch_gensrc.c:1183`, `src/kpatch_gensrc.c:1311`. -/
def GSt.setPair (s : GSt) (b0 b1 : GBlock) : GSt :=
  ⟨s.f0.upd b0.start fun b => { b with pair := some b1.start }, s.f1.upd b1.start fun b => { b with pair := some b0.start }⟩

/-! ### Renaming -/

/-- The new name of a symbol: its length counts the final NUL.  src/kpatch_gensrc.c:988-1002
(__name_add_kpatch_suffix). -/
def kpatchName (base : Kpstr) : Kpstr := kpz (base.text ++ lit ".kpatch" ++ [0#8])

/-- src/kpatch_gensrc.c:988-1002 (__name_add_kpatch_suffix), 1029-1033 (cblock_make_new_name). -/
def addSuffix (f : GFile) (t base : Kpstr) : Option GFile := (renameAdd f.ren t (kpatchName base)).map f.withRen

/-- The pointer is at a colon. `src/kpatch_gensrc.c:983`, `src/kpatch_gensrc.c:1018`. -/
def atColon (s : Option (List Byte)) : Bool := s.any fun s => s.head? = some 58#8

/-- The loop of cblock_func_match_labels over the label lines of the two blocks.
src/kpatch_gensrc.c:954-986 (cblock_func_match_labels). -/
def matchLabels (add : Bool) (r : Renames) : List Ln → List Ln → Option Renames
  | a :: l0, b :: l1 =>
    if a.text = b.text then matchLabels add r l0 l1
    else
      let (t0, s0) := getToken (some a.text)
      let (t1, s1) := getToken (some b.text)
      (if add then renameAdd r t0 t1 else renameDel r t0).bind fun r =>
        if atColon s0 && atColon s1 then matchLabels add r l0 l1 else none
  | _, _ => some r

/-- The label lines of a block. `src/kpatch_gensrc.c:983`, `src/kpatch_gensrc.c:1018`. -/
def GFile.labels (f : GFile) (b : GBlock) : List Ln := (f.lines b).filter fun l => l.dir = .label

/-- src/kpatch_gensrc.c:954-986 (cblock_func_match_labels). -/
def funcLabels (add : Bool) (s : GSt) (b0 b1 : GBlock) : Option GSt :=
  (matchLabels add s.f0.ren (s.f0.labels b0) (s.f1.labels b1)).map fun r => { s with f0 := s.f0.withRen r }

/-- src/kpatch_gensrc.c:1010-1026 (cblock_make_new_labels). -/
def newLabelsLoop (f : GFile) (name : Kpstr) : List Ln → Option GFile
  | [] => some f
  | l :: r =>
    let (t, s) := getToken (some l.text)
    if atColon s = false then none
    else if kpstrcmp t name = 0 then newLabelsLoop f name r
    else (addSuffix f t t).bind fun f => newLabelsLoop f name r

/-- src/kpatch_gensrc.c:1004-1027 (cblock_make_new_labels). -/
def makeNewLabels (f : GFile) (b : GBlock) : Option GFile := newLabelsLoop f b.name (f.labels b)

/-- rename_add on the old file, `src/kpatch_gensrc.c:159-182` (rename_add). -/
def GSt.add0 (s : GSt) (a b : Kpstr) : Option GSt := (renameAdd s.f0.ren a b).map fun r => { s with f0 := s.f0.withRen r }
/-- rename_add on the new file, `src/kpatch_gensrc.c:159-182` (rename_add). -/
def GSt.add1 (s : GSt) (a b : Kpstr) : Option GSt := (renameAdd s.f1.ren a b).map fun r => { s with f1 := s.f1.withRen r }
/-- rename_del on the old file, `src/kpatch_gensrc.c:184-194` (rename_del). -/
def GSt.del0 (s : GSt) (a : Kpstr) : Option GSt := (renameDel s.f0.ren a).map fun r => { s with f0 := s.f0.withRen r }
/-- rename_del on the new file, `src/kpatch_gensrc.c:184-194` (rename_del). -/
def GSt.del1 (s : GSt) (a : Kpstr) : Option GSt := (renameDel s.f1.ren a).map fun r => { s with f1 := s.f1.withRen r }

/-! ### Variables -/

/-- `true`: __cblock_var_cmp returns 0.  src/kpatch_gensrc.c:882-906 (__cblock_var_cmp). -/
def varCmp (o : GenOpts) (s : GSt) (b0 b1 : GBlock) : Option (GSt × Bool) :=
  if b1.pair.isSome ∧ b1.pair ≠ some b0.start then some (s, false)
  else if ((renameFind s.f1.ren b1.name).any fun r => decide (kpstrcmp b0.name (kpz r.dst) ≠ 0)) = true then some (s, false)
  else if kpstrcmp b0.human b1.human ≠ 0 then some (s, false)
  else
    (s.add0 b0.name b1.name).bind fun s => (s.add1 b1.name b0.name).bind fun s =>
      let same := cblockSame o.os s.f0 s.f1 b0 b1 true true
      (s.del0 b0.name).bind fun s => (s.del1 b1.name).map fun s => (s, same)

/-- The loop over all variables of the new file.  src/kpatch_gensrc.c:921-924 (cblock_var_try_to_match). -/
def varSearch (o : GenOpts) (s : GSt) (b0 : GBlock) : List GBlock → Option (GSt × Option GBlock)
  | [] => some (s, none)
  | b1 :: r =>
    (varCmp o s b0 b1).bind fun (s, same) => if same then some (s, some b1) else varSearch o s b0 r

/-- src/kpatch_gensrc.c:908-926 (cblock_var_try_to_match). -/
def varTry (o : GenOpts) (s : GSt) (b0 : GBlock) (b1 : Option GBlock) : Option (GSt × Option GBlock) :=
  if b0.auto = false then some (s, s.f1.find b0.name)
  else
    let first := match b1 with
      | none => some (s, false)
      | some b1 => varCmp o s b0 b1
    first.bind fun (s, same) =>
      if same then some (s, b1) else varSearch o s b0 (s.f1.bs.filter fun b => b.ty = .var)

/-- The state of the loop over the variables: the files, the variable of the new file at hand, progress. `src/kpatch_gensrc.c:1037-1063` (analyze_var_cblocks_matches). -/
structure VarSt where
  s : GSt
  cur : Option Nat
  progress : Bool

/-- One round of the loop over the variables of the old file.  src/kpatch_gensrc.c:1045-1062
(analyze_var_cblocks_matches). -/
def varStep (o : GenOpts) (pass : Nat) (v : VarSt) (s0 : Nat) : Option VarSt :=
  match v.s.f0.at s0 with
  | none => some v
  | some b0 =>
    if b0.pair.isSome then some v
    else if pass = 0 ∧ kpstrncmpz b0.name descStr = 0 then some v
    else
      (varTry o v.s b0 (v.cur.bind v.s.f1.at)).bind fun (s, b1) =>
        match b1 with
        | none => some ⟨s, none, v.progress⟩
        | some b1 =>
          (s.add0 b0.name b1.name).bind fun s => (s.add1 b1.name b0.name).map fun s =>
            let s := s.setPair b0 b1
            ⟨s, s.f1.nextFrom (b1.start + 1) .var, true⟩

/-- The loop over the passes.  Each round pairs a variable of the old file or ends a pass, so the fuel given by the caller
is enough.  src/kpatch_gensrc.c:1042-1065 (analyze_var_cblocks_matches). -/
def varPasses (o : GenOpts) : Nat → Nat → GSt → Option GSt
  | 0, _, s => some s
  | fuel + 1, pass, s =>
    (s.f0.starts .var).foldlM (varStep o pass) ⟨s, s.f1.nextFrom 0 .var, false⟩ |>.bind fun v =>
      let pass := if v.progress then pass else pass + 1
      if pass < 2 then varPasses o fuel pass v.s else some v.s

/-- A variable of the old file that may be missing in the new one.  src/kpatch_gensrc.c:1069-1076. -/
def mayVanish (b : GBlock) : Bool :=
  [lit ".LC", lit "warned.", lit "__warned.", lit "__func__.", descStr].any fun p => kpstrncmpz b.name p = 0

/-- src/kpatch_gensrc.c:1037-1080 (analyze_var_cblocks_matches). -/
def varMatches (o : GenOpts) (s : GSt) : Option GSt :=
  (varPasses o ((s.f0.starts .var).length + 2) 0 s).bind fun s =>
    if s.f0.bs.all fun b => decide (b.ty ≠ .var) || b.pair.isSome || mayVanish b then some s else none

/-- `true`: the contents are all right.  src/kpatch_gensrc.c:928-949 (cblock_var_check_content). -/
def varContentOk (o : GenOpts) (s : GSt) (b0 : GBlock) : Bool :=
  match b0.pair.bind s.f1.at with
  | none => true
  | some b1 => ignoredSym o s.f1.basename b0.human b0.ty || cblockSame o.os s.f0 s.f1 b0 b1 true true

/-- New variables get new names.  src/kpatch_gensrc.c:1096-1101 (analyze_var_cblocks). -/
def newVarStep (f : GFile) (s1 : Nat) : Option GFile :=
  match f.at s1 with
  | none => some f
  | some b1 => if b1.pair.isSome then some f else addSuffix f b1.name b1.name

/-- src/kpatch_gensrc.c:1082-1102 (analyze_var_cblocks). -/
def analyzeVars (o : GenOpts) (s : GSt) : Option GSt :=
  (varMatches o s).bind fun s =>
    if s.f0.bs.all fun b => decide (b.ty ≠ .var) || varContentOk o s b then
      ((s.f1.starts .var).foldlM newVarStep s.f1).map fun f => { s with f1 := f }
    else none

/-! ### Functions -/

/-- A pair of functions is made.  src/kpatch_gensrc.c:1154-1160, 1183-1190 (analyze_func_cblocks). -/
def pairFuncs (s : GSt) (b0 b1 : GBlock) : Option GSt :=
  (funcLabels true (s.setPair b0 b1) b0 b1).bind fun s =>
    (s.del0 b0.name).bind fun s =>
      (s.add1 b1.name (kpatchName b1.name)).bind fun s => s.add0 b0.name (kpatchName b1.name)

/-- Pass 1, functions with normal names.  src/kpatch_gensrc.c:1146-1163 (analyze_func_cblocks). -/
def funcExactStep (s : GSt) (s0 : Nat) : Option GSt :=
  match s.f0.at s0 with
  | none => some s
  | some b0 =>
    if b0.auto then some s
    else
      match s.f1.find b0.name with
      | none => some s
      | some b1 => pairFuncs s b0 b1

/-- The first block with the human name is the only one in the tree, so the loop ends after it.
src/kpatch_gensrc.c:1108-1136 (func_match_by_human_name). -/
def funcByHuman (o : GenOpts) (cmp : Bool) (s : GSt) (b0 : GBlock) : Option (GSt × Option GBlock) :=
  match s.f1.findHuman b0.human with
  | none => some (s, none)
  | some b1 =>
    if b1.auto = false ∨ b1.pair.isSome then some (s, none)
    else if cmp then
      (funcLabels true s b0 b1).bind fun s =>
        let same := cblockSame o.os s.f0 s.f1 b0 b1 true true
        (funcLabels false s b0 b1).map fun s => (s, if same then some b1 else none)
    else some (s, some b1)

/-- Pass 2a, functions with names made by the compiler.  src/kpatch_gensrc.c:1174-1192 (analyze_func_cblocks). -/
def funcAutoStep (o : GenOpts) (cmp : Bool) (s : GSt) (s0 : Nat) : Option GSt :=
  match s.f0.at s0 with
  | none => some s
  | some b0 =>
    if b0.pair.isSome ∨ b0.auto = false then some s
    else
      (funcByHuman o cmp s b0).bind fun (s, b1) =>
        match b1 with
        | none => some s
        | some b1 => pairFuncs s b0 b1

/-- Pass 2b, new functions.  src/kpatch_gensrc.c:1206-1219 (analyze_func_cblocks). -/
def newFuncStep (f : GFile) (s1 : Nat) : Option GFile :=
  match f.at s1 with
  | none => some f
  | some b1 =>
    if b1.pair.isSome then some f
    else if (renameFind f.ren b1.name).isSome then some f
    else (if b1.auto then addSuffix f b1.name b1.name else some f).bind fun f => makeNewLabels f b1

/-- Pass 3: functions that are ignored or not linked.  src/kpatch_gensrc.c:1247-1261 (analyze_func_cblocks). -/
def funcListStep (o : GenOpts) (s : GSt) (s1 : Nat) : Option GSt :=
  match s.f1.at s1 with
  | none => some s
  | some b1 =>
    match b1.pair.bind s.f0.at with
    | none => some s
    | some b0 =>
      (if ignoredSym o s.f1.basename b1.human b1.ty then
        (s.del1 b1.name).bind fun s => (s.del0 b0.name).map fun s =>
          { s with f1 := s.f1.upd s1 fun b => { b with ignore := true } }
      else some s).map fun s =>
        if inSyms s.f1.basename b1.human o.unlinkSyms then
          { s with f1 := s.f1.upd s1 fun b => { b with unlink := true } }
        else s

/-- Pass 4: functions that have not changed.  The flag says that a function is not adapted.
src/kpatch_gensrc.c:1263-1285 (analyze_func_cblocks). -/
def funcSameStep (o : GenOpts) (x : GSt × Bool) (s1 : Nat) : Option (GSt × Bool) :=
  let (s, bad) := x
  match s.f1.at s1 with
  | none => some (s, bad)
  | some b1 =>
    match b1.pair.bind s.f0.at with
    | none => some (s, bad)
    | some b0 =>
      if b1.ignore then some (s, bad)
      else if cblockSame o.os s.f0 s.f1 b0 b1 true true then
        (s.del0 b0.name).bind fun s => (s.del1 b1.name).bind fun s =>
          (s.add0 b0.name b1.name).bind fun s => (s.add1 b1.name b0.name).map fun s =>
            ({ s with f1 := s.f1.upd s1 fun b => { b with ignore := true } }, bad)
      else
        let bad := bad || (!b1.adapted.getD (o.uninit s1) && inSyms s.f1.basename b1.human o.mustAdapt)
        (makeNewLabels s.f1 b1).map fun f => ({ s with f1 := f }, bad)

/-- src/kpatch_gensrc.c:1138-1288 (analyze_func_cblocks). -/
def analyzeFuncs (o : GenOpts) (s : GSt) : Option GSt :=
  ((s.f0.starts .func).foldlM funcExactStep s).bind fun s =>
  ((s.f0.starts .func).foldlM (funcAutoStep o true) s).bind fun s =>
  ((s.f0.starts .func).foldlM (funcAutoStep o false) s).bind fun s =>
  ((s.f1.starts .func).foldlM newFuncStep s.f1).bind fun f1 =>
  ((s.f1.starts .func).foldlM (funcListStep o) { s with f1 := f1 }).bind fun s =>
  ((s.f1.starts .func).foldlM (funcSameStep o) (s, false)).bind fun (s, bad) =>
    if bad then none else some s

/-! ### Other blocks -/

/-- The new block has no human name and no flags.  src/kpatch_parse.c:476-494 (cblock_split). -/
def GFile.split (f : GFile) (b : GBlock) (len : Nat) : GFile :=
  { f with bs := f.bs.flatMap fun x =>
      if x.start = b.start then
        [{ x with stop := x.start + len },
         ⟨x.start + len, x.stop, x.name, ⟨[], 0⟩, x.ty, false, some false, none, false, false⟩]
      else [x] }

/-- One round: the two blocks, cut to the same number of lines if needed.  src/kpatch_gensrc.c:1297-1312
(analyze_other_cblocks). -/
def otherStep (o : GenOpts) (s : GSt) (b0 b1 : GBlock) : Option GSt :=
  if cblockSame o.os s.f0 s.f1 b0 b1 false false then some (s.setPair b0 b1)
  else
    let n0 := b0.stop - b0.start
    let n1 := b1.stop - b1.start
    let s := if n1 > n0 then { s with f1 := s.f1.split b1 n0 } else s
    let b1 := if n1 > n0 then { b1 with stop := b1.start + n0 } else b1
    let n1 := b1.stop - b1.start
    let s := if n0 > n1 then { s with f0 := s.f0.split b0 n1 } else s
    let b0 := if n0 > n1 then { b0 with stop := b0.start + n1 } else b0
    if cblockSame o.os s.f0 s.f1 b0 b1 false false then some (s.setPair b0 b1) else none

/-- The loop; the starts of the blocks grow, so the number of lines is enough fuel.  src/kpatch_gensrc.c:1295-1316
(analyze_other_cblocks). -/
def otherPairs (o : GenOpts) : Nat → GSt → Nat → Nat → Option GSt
  | 0, s, _, _ => some s
  | fuel + 1, s, i0, i1 =>
    match (s.f0.nextFrom i0 .other).bind s.f0.at, (s.f1.nextFrom i1 .other).bind s.f1.at with
    | some b0, some b1 => (otherStep o s b0 b1).bind fun s => otherPairs o fuel s (b0.start + 1) (b1.start + 1)
    | _, _ => some s

/-- src/kpatch_gensrc.c:1290-1315 (analyze_other_cblocks). -/
def analyzeOthers (o : GenOpts) (s : GSt) : Option GSt := otherPairs o (s.f0.ls.length + 1) s 0 0

/-! ### Output -/

/-- `struct kpatch_info` as written: the symbol strings; `target` is the old function.  src/kpatch_gensrc.c:1443-1478. -/
structure InfoRec where
  nr : Nat
  name : List Byte
  newName : List Byte
  target : Option (List Byte)
deriving DecidableEq, Repr

/-- A piece of the output.  `line` is the statement `idx` of the old (`false`) or new (`true`) file as it is written, with
what follows it. The fprintf calls of `src/kpatch_gensrc.c:449-526`, `src/kpatch_gensrc.c:1318-1587`. -/
inductive Out where
  | text (s : List Byte)
  | globl (nm : List Byte)
  | label (nm : List Byte)
  | section (push : Bool) (nm : List Byte) (align : Bool)
  | pop
  | line (new : Bool) (idx : Nat) (s sep : List Byte)
  | info (r : InfoRec)
deriving DecidableEq, Repr

/-- The state of the output: the files (their renames still change), the pieces written, the static variables `nsyms` and
`init_data_section`, and the starts of the blocks of the two files whose flag `handled` is set. `src/kpatch_gensrc.c:451`, `src/kpatch_gensrc.c:1430`, `src/include/kpatch_parse.h:98`. -/
structure GenSt where
  s : GSt
  out : List Out
  nsyms : Nat
  dataInit : Bool
  h0 : List Nat
  h1 : List Nat

/-- One fprintf to the output, for example `src/kpatch_gensrc.c:1446`. -/
def GenSt.emit (g : GenSt) (o : List Out) : GenSt := { g with out := g.out ++ o }

/-- The file of a block: old or new. `b->f`, `src/include/kpatch_parse.h:85`. -/
def GSt.file (s : GSt) (new : Bool) : GFile := if new then s.f1 else s.f0

/-- `b->handled = 1`. `src/kpatch_gensrc.c:1350`, `src/kpatch_gensrc.c:1358`, `src/kpatch_gensrc.c:1373`, `src/kpatch_gensrc.c:1417`, `src/kpatch_gensrc.c:1494`. -/
def GenSt.handled (g : GenSt) (new : Bool) (start : Nat) : GenSt :=
  if new then { g with h1 := start :: g.h1 } else { g with h0 := start :: g.h0 }

/-- `if (p) p->handled = 1` for the start of `p`. `src/kpatch_gensrc.c:1352`, `src/kpatch_gensrc.c:1375`, `src/kpatch_gensrc.c:1498`. -/
def GenSt.handledOpt (g : GenSt) (new : Bool) (p : Option Nat) : GenSt :=
  match p with
  | some p => g.handled new p
  | none => g

/-- The flags FLAG_RENAME and FLAG_GOTPCREL. `src/kpatch_gensrc.c:31-33`. -/
structure WFlags where
  ren : Bool
  got : Bool
deriving DecidableEq, Repr

/-- The text of a line as written; the sizes of the buffers are not modelled.  src/kpatch_gensrc.c:1318-1331
(cblock_write_line). -/
def lineText (f : GFile) (fl : WFlags) (s : List Byte) : Option (List Byte) :=
  let s := if fl.ren then strDoRename f.ren (some s) else s
  if fl.got then strDoGotpcrel s else some s

/-- src/kpatch_gensrc.c:1318-1337 (cblock_write_line). -/
def writeLine (f : GFile) (new : Bool) (fl : WFlags) (i : Nat) : Option Out :=
  match f.ls[i]? with
  | none => none
  | some l =>
    (lineText f fl l.text).bind fun s =>
      (stmtSep s (f.nums.getD i 0) (f.nums.getD (i + 1) 0)).map fun sep => .line new i s sep

/-- The line numbers of a block. `src/include/kpatch_parse.h:86`. -/
def GBlock.range (b : GBlock) : List Nat := (List.range (b.stop - b.start)).map (b.start + ·)

/-- src/kpatch_gensrc.c:1339-1345 (cblock_write). -/
def writeBlock (f : GFile) (new : Bool) (fl : WFlags) (b : GBlock) : Option (List Out) :=
  b.range.mapM (writeLine f new fl)

/-- src/kpatch_gensrc.c:1347-1353 (cblock_write_other). -/
def writeOther (g : GenSt) (b : GBlock) : Option GenSt :=
  (writeBlock g.s.f1 true ⟨false, false⟩ b).map fun o => ((g.emit o).handled true b.start).handledOpt false b.pair

/-- The pointers `pair` set here are never read again.  src/kpatch_gensrc.c:1355-1364 (cblock_write_attr). -/
def writeAttr (g : GenSt) (new : Bool) (b : GBlock) (bpair : Option GBlock) : Option GenSt :=
  (writeBlock (g.s.file new) new ⟨true, false⟩ b).map fun o =>
    ((g.emit o).handled new b.start).handledOpt (!new) (bpair.map (·.start))

/-- `if (b->pair && b->pair->globl && !b->globl)`. `src/kpatch_gensrc.c:1370`, `src/kpatch_gensrc.c:1491`. -/
def becameGlobal (g : GenSt) (b : GBlock) : Bool := (b.pair.bind g.s.f1.at).any (·.globl) && !b.globl

/-- src/kpatch_gensrc.c:1366-1376 (cblock_write_var). -/
def writeVar (g : GenSt) (b : GBlock) : Option GenSt :=
  let pre := Out.text (lit "#---------- var ---------\n") ::
    (if becameGlobal g b then [Out.text (lit "\t.globl " ++ b.name.text ++ lit "\n")] else [])
  (writeBlock g.s.f0 false ⟨false, false⟩ b).map fun o =>
    ((g.emit (pre ++ o)).handled false b.start).handledOpt true b.pair

/-- src/kpatch_gensrc.c:449-474 (change_section). -/
def changeSection (g : GenSt) (sect : SectInfo) (push : Bool) : GenSt :=
  match sect.outname with
  | some n => g.emit [.section push n false]
  | none =>
    if sect.exec then g.emit [.section push (lit ".kpatch.text,\"ax\",@progbits") false]
    else { g.emit [.section push (lit ".kpatch.data,\"aw\",@progbits") (!g.dataInit)] with dataInit := true }

/-- `strtoul(t.s, &p, 10)` where a number is required: its value as an int.  `strtoul` skips white space and takes a sign;
a sign is not modelled.  `none`: no digits. `src/kpatch_gensrc.c:490-493`, `src/kpatch_gensrc.c:500`. -/
def tokNumber (t : Kpstr) : Option Nat :=
  let ds := t.s.takeWhile isDigitChar
  if ds = [] then none else some (ds.foldl (fun n c => n * 10 + (c.toNat - 48)) 0)

/-- Name, size and alignment of a `.comm` line.  Values beyond the range of int are not modelled.
src/kpatch_gensrc.c:476-502 (get_comm_args). -/
def commArgs (s : List Byte) : Option (Kpstr × Nat × Nat) :=
  let (t, s) := getToken (some s)
  if kpstrcmpz t (lit ".comm") ≠ 0 then none
  else
    let (nm, s) := getToken s
    let (t, s) := getToken s
    if kpstrcmpz t (lit ",") ≠ 0 then none
    else
      let (t, s) := getToken s
      (tokNumber t).bind fun sz =>
        match s with
        | none => some (nm, sz, 0)
        | some _ =>
          let (t, s) := getToken s
          if kpstrcmpz t (lit ",") ≠ 0 then none
          else
            let (t, _) := getToken s
            (tokNumber t).map fun al => (nm, sz, al)

/-- A number in decimal. `%d` of fprintf, C library; used at `src/kpatch_gensrc.c:1446`. -/
def decText (n : Nat) : List Byte := (Nat.toDigits 10 n).map fun c => BitVec.ofNat 8 c.toNat

/-- The new name of a symbol of a file, as printed with `%.*s`. `src/kpatch_gensrc.c:1434-1475`. -/
def renamed (f : GFile) (nm : Kpstr) : List Byte :=
  match renameFind f.ren nm with
  | some r => cstr r.dst
  | none => nm.text

/-- The section `.data`: find_section gives the predefined one.  src/kpatch_parse.c:568. -/
def dataSection : SectInfo := ⟨lit ".data", false, none⟩

/-- src/kpatch_gensrc.c:506-526 (add_comm_cmd). -/
def addComm (g : GenSt) (f : GFile) (ren : Bool) (s : List Byte) : Option GenSt :=
  (commArgs s).map fun (nm, sz, al) =>
    let name := if ren then renamed f nm else nm.text
    (changeSection g dataSection true).emit (
      (if al ≠ 0 then [Out.text (lit "\t.align\t" ++ decText al ++ lit "\n")] else []) ++ [.label name] ++
      (if sz ≠ 0 then [Out.text (lit "\t.zero\t" ++ decText sz ++ lit "\n")] else []) ++ [.pop])

/-- One line of new code or data.  src/kpatch_gensrc.c:1382-1404 (__cblock_gen). -/
def genLine (fl : WFlags) (first : Nat) (g : GenSt) (i : Nat) : Option GenSt :=
  match g.s.f1.ls[i]? with
  | none => none
  | some l =>
    match l.dir with
    | .text | .data | .bss | .pushsection | .sect | .popsection | .previous =>
      some (if i = first then g else changeSection g l.sect false)
    | .comm => addComm g g.s.f1 fl.ren l.text
    | _ => (writeLine g.s.f1 true fl i).map fun o => g.emit [o]

/-- New code or data.  src/kpatch_gensrc.c:1408-1418 (cblock_gen). -/
def genBlock (o : GenOpts) (fl : WFlags) (g : GenSt) (b : GBlock) : Option GenSt :=
  match g.s.f1.ls[b.start]? with
  | none => none
  | some l =>
    let g := changeSection g l.sect true
    let g := if o.global && b.ty = .func then g.emit [.globl (b.name.text ++ lit ".kpatch")] else g
    (b.range.foldlM (genLine fl b.start) g).map fun g =>
      (g.emit ((if b.ty = .func then [Out.label (b.name.text ++ lit ".kpatch_end")] else []) ++ [.pop])).handled true b.start

/-- src/kpatch_gensrc.c:1428-1481 (write_new_function). -/
def writeNewFunction (o : GenOpts) (g : GenSt) (b : GBlock) : Option GenSt :=
  (genBlock o ⟨true, o.gotpcrel⟩ g b).map fun g =>
    let nr := g.nsyms + 1
    let target := if b.unlink then none else (b.pair.bind g.s.f0.at).map fun p => p.name.text
    { g.emit [.text [10#8], .info ⟨nr, b.name.text, renamed g.s.f1 b.name, target⟩] with nsyms := nr }

/-- src/kpatch_gensrc.c:1483-1513 (cblock_write_func). -/
def writeFunc (o : GenOpts) (g : GenSt) (b : GBlock) : Option GenSt :=
  let pre := Out.text (lit "#---------- func ---------\n") ::
    (if o.global || becameGlobal g b then [Out.globl b.name.text] else [])
  (writeBlock g.s.f0 false ⟨false, false⟩ b).bind fun out =>
    let g := (g.emit (pre ++ out)).handled false b.start
    match b.pair.bind g.s.f1.at with
    | none => some g
    | some b1 =>
      let g := g.handled true b1.start
      if b1.ignore || b1.unlink then some g
      else
        (writeNewFunction o (g.emit [.text (lit "\t.text\n"), .label (b.name.text ++ lit ".Lfe"),
          .text (lit "#---------- kpatch begin ---------\n")]) b1).map fun g =>
          g.emit [.text (lit "#---------- kpatch end -----------\n")]

/-- The original functions and variables.  src/kpatch_gensrc.c:1528-1534 (write_cblocks). -/
def writeOld (o : GenOpts) (g : GenSt) (s0 : Nat) : Option GenSt :=
  match g.s.f0.at s0 with
  | none => some g
  | some b0 =>
    match b0.ty with
    | .func => writeFunc o g b0
    | .var => writeVar g b0
    | _ => some g

/-- New functions and variables.  src/kpatch_gensrc.c:1536-1546 (write_cblocks). -/
def writeNew (o : GenOpts) (g : GenSt) (s1 : Nat) : Option GenSt :=
  match g.s.f1.at s1 with
  | none => some g
  | some b1 =>
    if b1.pair.isSome then some g
    else
      match b1.ty with
      | .func => writeNewFunction o (g.emit [.text (lit "#---------- new func ---------\n")]) b1
      | .var => genBlock o ⟨true, false⟩ g b1
      | _ => some g

/-- New names for the functions that are not linked.  src/kpatch_gensrc.c:1548-1555 (write_cblocks). -/
def renameUnlinked (g : GenSt) (s1 : Nat) : Option GenSt :=
  match g.s.f1.at s1 with
  | none => some g
  | some b1 =>
    if b1.unlink then
      (makeNewLabels g.s.f1 b1).bind fun f => (addSuffix f b1.name b1.name).map fun f => { g with s := { g.s with f1 := f } }
    else some g

/-- src/kpatch_gensrc.c:1556-1561 (write_cblocks). -/
def writeUnlinked (o : GenOpts) (g : GenSt) (s1 : Nat) : Option GenSt :=
  match g.s.f1.at s1 with
  | none => some g
  | some b1 =>
    if b1.unlink then writeNewFunction o (g.emit [.text (lit "#---------- unlinked func ---------\n")]) b1 else some g

/-- Declarations of the old file.  src/kpatch_gensrc.c:1566-1569 (write_cblocks). -/
def writeAttr0 (g : GenSt) (s0 : Nat) : Option GenSt :=
  match g.s.f0.at s0 with
  | none => some g
  | some b0 => writeAttr g false b0 (g.s.f1.find b0.name)

/-- Declarations of the new file.  src/kpatch_gensrc.c:1570-1573 (write_cblocks). -/
def writeAttr1 (g : GenSt) (s1 : Nat) : Option GenSt :=
  match g.s.f1.at s1 with
  | none => some g
  | some b1 => if g.h1.contains s1 then some g else writeAttr g true b1 (g.s.f0.find b1.name)

/-- Other blocks.  src/kpatch_gensrc.c:1575-1579 (write_cblocks). -/
def writeOthers (g : GenSt) (s1 : Nat) : Option GenSt :=
  match g.s.f1.at s1 with
  | none => some g
  | some b1 => if g.h1.contains s1 then some g else writeOther g b1

/-- The first other block of the new file.  src/kpatch_gensrc.c:1520-1526 (write_cblocks). -/
def writeHeader (g : GenSt) : Option GenSt :=
  match (g.s.f1.starts .other).head?.bind g.s.f1.at with
  | none => some g
  | some b1 => writeOther g b1

/-- src/kpatch_gensrc.c:1516-1590 (write_cblocks). -/
def writeCblocks (o : GenOpts) (s : GSt) : Option GenSt :=
  (writeHeader ⟨s, [], 0, false, [], []⟩).bind fun g =>
  ((g.s.f0.bs.map (·.start)).foldlM (writeOld o) g).bind fun g =>
  ((g.s.f1.bs.map (·.start)).foldlM (writeNew o) g).bind fun g =>
  ((g.s.f1.starts .func).foldlM renameUnlinked g).bind fun g =>
  ((g.s.f1.starts .func).foldlM (writeUnlinked o) g).bind fun g =>
  ((g.s.f0.starts .attr).foldlM writeAttr0 g).bind fun g =>
  ((g.s.f1.starts .attr).foldlM writeAttr1 g).bind fun g =>
  ((g.s.f1.starts .other).foldlM writeOthers g).bind fun g =>
    if g.s.f0.bs.all (fun b => g.h0.contains b.start) && g.s.f1.bs.all (fun b => g.h1.contains b.start) then some g else none

/-! ### The program -/

/-- An input file: path parts and lines, without the empty line number 0 put in front by read_file. `src/include/kpatch_io.h:14-32`, `src/kpatch_gensrc.c:1694-1701` (main). -/
structure GenInput where
  basename : List Byte
  dirname : List Byte
  lines : List (List Byte)

/-- A file as read and divided, and the sections known after it.  The order of init_sections and cblocks_init for the two
files does not matter: cblocks_init does not change the sections.  src/kpatch_gensrc.c:1776-1779 (main). -/
def loadGFile (known : List SectInfo) (i : GenInput) : Option (GFile × List SectInfo) :=
  (initMultilines ([] :: i.lines)).bind fun st =>
    (makeLines known (st.map (·.1))).bind fun (ls, known) =>
      (cblocksInit ls).map fun cb => (⟨cb.ls, st.map (·.2), cb.bs.map GBlock.new, .nil, i.basename, i.dirname⟩, known)

/-- The analysis.  src/kpatch_gensrc.c:1781-1783 (main). -/
def analyze (o : GenOpts) (s : GSt) : Option GSt :=
  (analyzeVars o s).bind fun s => (analyzeFuncs o s).bind fun s => analyzeOthers o s

/-- The two input files as blocks. `src/kpatch_gensrc.c:1776-1779` (main). -/
def loadBoth (i0 i1 : GenInput) : Option GSt :=
  (loadGFile predefinedSections i0).bind fun (f0, known) => (loadGFile known i1).map fun (f1, _) => ⟨f0, f1⟩

/-- The generator: pieces of the output.  src/kpatch_gensrc.c:1677-1801 (main). -/
def gensrc (o : GenOpts) (i0 i1 : GenInput) : Option (List Out) :=
  (loadBoth i0 i1).bind fun s => (analyze o s).bind fun s => (writeCblocks o s).map (·.out)

/-- `.long 0` after a pointer of 4 bytes.  src/kpatch_gensrc.c:1422-1426 (pad2quad). -/
def padText (arch32 : Bool) : List Byte := if arch32 then lit "\t.long 0\n" else []

/-- The bytes of a piece; `shift` is PAGE_SHIFT.  src/kpatch_gensrc.c:1443-1480 (write_new_function) and the fprintf
calls of the functions above. -/
def Out.render (arch32 : Bool) (shift : Nat) : Out → List Byte
  | .text s => s
  | .globl nm => lit "\t.globl\t" ++ nm ++ lit "\n"
  | .label nm => nm ++ lit ":\n"
  | .section push nm align =>
    lit "\t." ++ (if push then lit "push" else []) ++ lit "section " ++ nm ++ lit "\n" ++
      (if align then lit "\t.p2align\t" ++ decText shift ++ lit "\n" else [])
  | .pop => lit "\t.popsection\n"
  | .line _ _ s sep => s ++ sep
  | .info r =>
    let slong := if arch32 then lit ".long" else lit ".quad"
    lit "\t.pushsection .kpatch.strtab,\"a\",@progbits\nkpatch_strtab" ++ decText r.nr ++ lit ":\n\t.string \"" ++ r.newName ++
      lit "\"\n\t.popsection\n\t.pushsection .kpatch.info,\"a\",@progbits\n" ++ r.name ++ lit ".Lpi:\n" ++
      (match r.target with
        | some t => lit "\t" ++ slong ++ lit " " ++ t ++ lit "\n" ++ padText arch32
        | none => lit "\t.quad 0\n") ++
      lit "\t" ++ slong ++ lit " " ++ r.newName ++ lit "\n" ++ padText arch32 ++
      (match r.target with
        | some t => lit "\t.long " ++ t ++ lit ".Lfe - " ++ t ++ lit "\n"
        | none => lit "\t.long 0\n") ++
      lit "\t.long " ++ r.name ++ lit ".kpatch_end - " ++ r.newName ++ lit "\n\t" ++ slong ++ lit " kpatch_strtab" ++
      decText r.nr ++ lit "\n" ++ padText arch32 ++
      lit "\t.quad 0\n\t.long 0\n\t.byte 0, 0, 0, 0\n\t.popsection\n\n"

end Verif
