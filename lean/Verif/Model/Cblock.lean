import Verif.Model.Sections
/-
Model of the division of an assembler file into blocks: functions, variables, attributes and other lines,
src/kpatch_parse.c and src/arch/*/arch_parse.c.  `none` as a result of a function is kpfatal.
-/
namespace Verif

variable [AsmTarget]

/-- A line of a file with its directive and section: `f->lines[l]`, `f->ctype[l]`, `f->section[l]`. `src/include/kpatch_io.h:14-32` (struct kp_file). -/
structure Ln where
  text : List Byte
  dir : Dir
  sect : SectInfo
deriving DecidableEq, Repr

/-- Directives and sections of the statements of a file.  src/kpatch_parse.c:170-182 (init_ctypes), 734-758. -/
def makeLines (known : List SectInfo) (stmts : List (List Byte)) : Option (List Ln × List SectInfo) :=
  (initSections known stmts).map fun r => ((stmts.zip r.1).map fun x => ⟨x.1, parseCtype x.1, x.2⟩, r.2)

/-- src/kpatch_parse.c:161-168 (is_sect_cmd). -/
def isSectCmd (t : Dir) : Bool :=
  t = .text || t = .data || t = .bss || t = .sect || t = .pushsection || t = .popsection || t = .previous ||
    t = .subsection

/-- `strstr(h, n) - h`; `none`: NULL. C library; used at `src/kpatch_parse.c:87`. -/
def subIndex : List Byte → List Byte → Option Nat
  | [], n => if n = [] then some 0 else none
  | c :: t, n => if n.isPrefixOf (c :: t) then some 0 else (subIndex t n).map (· + 1)

/-- src/kpatch_parse.c:82-90 (remove_cold_suffix). -/
def removeCold (nm : Kpstr) : Kpstr :=
  match subIndex nm.s (lit ".cold") with
  | some i => ⟨nm.s, i⟩
  | none => nm

/-- The arguments of a `.type` line: name and attribute; `some none` for other lines.
src/kpatch_parse.c:127-141 (get_type_args). -/
def typeArgs (s : List Byte) : Option (Option (Kpstr × Kpstr)) :=
  let (t, s) := getToken (some s)
  if kpstrcmpz t (lit ".type") ≠ 0 then some none
  else
    let (nm, s) := getToken s
    let (t2, s) := getToken s
    let (attr, _) := getToken s
    if kpstrcmpz t2 (lit ",") ≠ 0 then none else some (some (nm, attr))

/-- The second token of a line. `src/kpatch_parse.c:384-385`, `src/kpatch_parse.c:787-788`. -/
def symArg (line : List Byte) : Kpstr := (getToken (getToken (some line)).2).1

/-- `strstr(s, ".LCOLD") || strstr(s, ".LHOT")`, `src/arch/x86/arch_parse.c` 50-57 and 132-138; there is no such test on
AArch64. -/
def isColdHotLabel (l : Ln) : Bool :=
  decide (AsmTarget.isa ≠ .aarch64) && l.dir = .label && (hasSub l.text (lit ".LCOLD") || hasSub l.text (lit ".LHOT"))

/-- The attribute of functions. `src/arch/x86/arch_parse.c:39`, `src/arch/aarch64/arch_parse.c:42`. -/
def fnAttr : List Byte := if AsmTarget.isa = .aarch64 then lit "%function" else lit "@function"

/-- The attributes of variables. `src/arch/x86/arch_parse.c:165`, `src/arch/aarch64/arch_parse.c:184`. -/
def objAttrs : List (List Byte) :=
  if AsmTarget.isa = .aarch64 then [lit "%object", lit "%tls_object", lit "%gnu_unique_object"]
  else [lit "@object", lit "@gnu_unique_object"]

/-- `!kpstrcmpz(&attr, "@function")`. `src/kpatch_parse.c:127-141`, `src/kpatch_parse.c:317-352`. -/
def isFnAttr : Option (Kpstr × Kpstr) → Bool
  | some (_, attr) => kpstrcmpz attr fnAttr = 0
  | none => false

/-- The loop of is_function_start over the lines `ls` from line `l`; `first` is `l == l0`.  `some (some nm)`: returns 1
with this name.  In the source `attr` keeps the value of the last `.type` line, but it is read only on `.type` lines.
src/arch/x86/arch_parse.c:29-61. -/
def funcStartLoop (first func : Bool) (nm : Kpstr) : List Ln → Option (Option Kpstr)
  | [] => some (if func then some nm else none)
  | l :: r =>
    if first = false ∧ l.text = [] then funcStartLoop false func nm r
    else if (isSectCmd l.dir && l.sect.exec) || l.dir = .align then funcStartLoop false func nm r
    else
      match typeArgs l.text with
      | none => none
      | some args =>
        if (l.dir = .weak && !first) || l.dir = .globl || l.dir = .hidden || l.dir = .prot || l.dir = .internal ||
            (l.dir = .type && isFnAttr args) then
          let nm2 := symArg l.text
          if nm.l ≠ 0 ∧ kpstrcmp nm nm2 ≠ 0 then some none
          else funcStartLoop false (func || l.dir = .type) nm2 r
        else if isColdHotLabel l then funcStartLoop false func nm r
        else some (if func then some nm else none)

/-- src/arch/x86/arch_parse.c:21-62 (is_function_start). -/
def isFunctionStart (ls : List Ln) : Option (Option Kpstr) := funcStartLoop true false ⟨[], 0⟩ ls

/-- The line is a `.type` of the function `nm` or of its cold part.
src/arch/x86/arch_parse.c:64-81 (recog_func_attr); the cold part is not recognised on AArch64,
src/arch/aarch64/arch_parse.c:58-70. -/
def recogFuncAttr (nm : Kpstr) (l : Ln) : Option Bool :=
  if l.dir = .type then
    match typeArgs l.text with
    | none => none
    | some none => some false
    | some (some (fnm, attr)) =>
      if kpstrcmpz attr fnAttr = 0 then
        let fnm := if AsmTarget.isa ≠ .aarch64 ∧ fnm.l > nm.l then removeCold fnm else fnm
        some (kpstrcmp fnm nm = 0)
      else some false
  else some false

/-- The line is the `.size` of the function `nm` or of its cold part.
src/kpatch_parse.c:779-797 (is_function_end). -/
def isFunctionEnd (nm : Kpstr) (l : Ln) : Bool :=
  if l.dir ≠ .size then false
  else
    let nm2 := symArg l.text
    let nm2 := if nm2.l > nm.l then removeCold nm2 else nm2
    kpstrcmp nm nm2 = 0

/-- `some (some (n, globl, nm))`: returns 1, `*e` is `n` lines after the start; `globl` is `none` if `*pglobl` is not
set.  src/arch/x86/arch_parse.c:117-194, src/arch/aarch64/arch_parse.c:136-213 (is_variable_start). -/
def varStartLoop (first globl : Bool) (nm : Kpstr) (n : Nat) : List Ln → Option (Option (Nat × Option Bool × Kpstr))
  | [] => some none
  | l :: r =>
    if l.text = [] ∧ first = false then varStartLoop false globl nm (n + 1) r
    else if isColdHotLabel l then varStartLoop false globl nm (n + 1) r
    else
      let nm2 : Option Kpstr :=
        if l.dir = .type ∨ l.dir = .globl ∨ l.dir = .lcl then some (symArg l.text)
        else if l.dir = .label then some (getToken (some l.text)).1
        else none
      if nm.l ≠ 0 ∧ (nm2.any fun x => decide (kpstrcmp nm x ≠ 0)) = true then some none
      else
        let nm := nm2.getD nm
        match l.dir with
        | .text | .data | .bss | .sect | .pushsection | .popsection | .previous | .subsection =>
          varStartLoop false globl nm (n + 1) r
        | .type =>
          match typeArgs l.text with
          | none => none
          | some none => some none
          | some (some (_, attr)) =>
            if (objAttrs.any fun a => kpstrcmpz attr a = 0) = false then some none
            else varStartLoop false globl nm (n + 1) r
        | .globl => varStartLoop false true nm (n + 1) r
        | .align => varStartLoop false globl nm (n + 1) r
        | .comment | .size => if first then some none else varStartLoop false globl nm (n + 1) r
        | .label => if l.sect.exec then some none else some (some (n + 1, some globl, nm))
        | .lcl => some (some (n + 1, some globl, nm))
        | .set => if AsmTarget.isa = .aarch64 then some (some (n + 1, none, symArg l.text)) else some none
        | _ => some none

/-- src/arch/x86/arch_parse.c:117-194 (is_variable_start). -/
def isVariableStart (ls : List Ln) : Option (Option (Nat × Option Bool × Kpstr)) := varStartLoop true false ⟨[], 0⟩ 0 ls

/-- `CBLOCK_*`.  src/include/kpatch_parse.h:102-105. -/
inductive BType where
  | func | var | attr | other
deriving DecidableEq, Repr

/-- `struct cblock` as cblock_add leaves it.  `adapted` is not initialised by cblock_add: `none` is an unknown value.
src/include/kpatch_parse.h:94-115. -/
structure Cblock where
  start : Nat
  stop : Nat
  name : Kpstr
  ty : BType
  globl : Bool
  adapted : Option Bool
deriving DecidableEq, Repr

/-- `nm->s[nm->l - 1]` of a name that is not empty. `src/kpatch_parse.c:228-235`. -/
def lastChar (nm : Kpstr) : Byte := nm.s.getD (nm.l - 1) 0

/-- The delimiters tab, newline, `.` and `,`. `src/kpatch_parse.c:227`. -/
def humanDelims : List Byte := [9#8, 10#8, 46#8, 44#8]

/-- Cut digits from the end of the name. `src/kpatch_parse.c:234-236`. -/
def cutDigits (s : List Byte) : Nat → Nat
  | 0 => 0
  | l + 1 => if isDigitChar (s.getD l 0) then cutDigits s l else l + 1

/-- The source reads `nm->s[-1]` for an empty name; here the name stays.
src/kpatch_parse.c:213-237 (cblock_make_human_name). -/
def humanName (nm : Kpstr) : Kpstr :=
  let (subnm, s) := getTokenD humanDelims (some nm.s)
  if s ≠ none ∧ 0 < nm.l ∧ isDigitChar (lastChar nm) then subnm
  else if kpstrncmpz nm (lit "__mod_") = 0 ∧ 0 < nm.l ∧ isDigitChar (lastChar nm) then ⟨nm.s, cutDigits nm.s nm.l⟩
  else nm

/-- The tree `cblocks_by_name` has the first block with each name.  src/kpatch_parse.c:267-278. -/
def findByName (bs : List Cblock) (nm : Kpstr) : Option Cblock := bs.find? fun b => kpstrcmp b.name nm = 0

/-- src/kpatch_parse.c:239-265 (cblock_add). -/
def cblockAdd (bs : List Cblock) (b : Cblock) : Option (List Cblock) :=
  if b.name.l ≠ 0 ∧ (findByName bs b.name).isSome then none else some (bs ++ [b])

/-- The flag KPGENSRC_ADAPTED in a `.kpgensrc_flags` line.  src/kpatch_parse.c:301-315 (get_kpatch_flags). -/
def kpatchFlags (line : List Byte) : Bool :=
  match (getToken (some line)).2 with
  | none => false
  | some r => (tokens (some r)).any fun t => kpstrcmpz t (lit "KPGENSRC_ADAPTED") = 0

/-- What the loop of init_func_block found: the lines it has looked at, with the `.kpgensrc_flags` lines cleared, the
flags, and whether it ended at the end of the function. `src/kpatch_parse.c:317-352` (init_func_block). -/
structure FuncScan where
  seen : List Ln
  globl : Bool
  adapted : Bool
  closed : Bool
deriving DecidableEq, Repr

/-- The loop of init_func_block: it does not look at the last line of the file.
src/kpatch_parse.c:325-344 (init_func_block). -/
def funcScan (nm : Kpstr) (cnt : Int) : List Ln → Option FuncScan
  | [] => some ⟨[], false, false, false⟩
  | [_] => some ⟨[], false, false, false⟩
  | l :: l2 :: r =>
    let g := decide (l.dir = .globl)
    let a := l.dir = .kpflags && kpatchFlags l.text
    let l' : Ln := if l.dir = .kpflags then { l with text := [] } else l
    match recogFuncAttr nm l' with
    | none => none
    | some b =>
      let cnt := if b then cnt + 1 else cnt
      if isFunctionEnd nm l' ∧ cnt - 1 = 0 then some ⟨[l'], g, a, true⟩
      else
        let cnt := if isFunctionEnd nm l' then cnt - 1 else cnt
        (funcScan nm cnt (l2 :: r)).map fun x => ⟨l' :: x.seen, g || x.globl, a || x.adapted, x.closed⟩

/-- The state of cblocks_init: the lines, the blocks in the order of their start, the current line. `src/kpatch_parse.c:496-522` (cblocks_init). -/
structure CbState where
  ls : List Ln
  bs : List Cblock
  i : Nat
deriving DecidableEq, Repr

/-- src/kpatch_parse.c:317-352 (init_func_block). -/
def initFuncBlock (st : CbState) (nm : Kpstr) : Option CbState :=
  (funcScan nm 0 (st.ls.drop st.i)).bind fun r =>
    let e := st.i + r.seen.length + (if r.closed then 0 else 1)
    (cblockAdd st.bs ⟨st.i, e, nm, .func, r.globl, if r.adapted then some true else none⟩).map fun bs =>
      ⟨st.ls.take st.i ++ r.seen ++ st.ls.drop (st.i + r.seen.length), bs, e⟩

/-- The loop of init_var_block: the number of lines after line `e` and the last value of `globl`.
src/kpatch_parse.c:359-371. -/
def varScan (nm : Kpstr) : Nat → Bool → List Ln → Option (Nat × Bool)
  | 0, globl, _ => some (0, globl)
  | _, globl, [] => some (0, globl)
  | fuel + 1, globl, l :: r =>
    match isVariableStart (l :: r) with
    | none => none
    | some (some (n, g, nm2)) =>
      if kpstrcmp nm nm2 ≠ 0 then some (0, g.getD globl)
      else (varScan nm fuel (g.getD globl) ((l :: r).drop n)).map fun x => (n + x.1, x.2)
    | some none =>
      if isDataDef l.text then (varScan nm fuel globl r).map fun x => (x.1 + 1, x.2)
      else some (0, globl)

/-- src/kpatch_parse.c:354-379 (init_var_block).  The fuel, the number of lines left, is enough: every round of the
loop takes a line. -/
def initVarBlock (st : CbState) (nm : Kpstr) : Option CbState :=
  (varScan nm (st.ls.length - st.i) false (st.ls.drop st.i)).bind fun r =>
    (cblockAdd st.bs ⟨st.i, st.i + r.1, nm, .var, r.2, none⟩).map fun bs => ⟨st.ls, bs, st.i + r.1⟩

/-- src/kpatch_parse.c:381-388 (init_set_block). -/
def initSetBlock (st : CbState) (l : Ln) : Option CbState :=
  (cblockAdd st.bs ⟨st.i, st.i + 1, symArg l.text, .var, false, none⟩).map fun bs => ⟨st.ls, bs, st.i + 1⟩

/-- `is_function_start(f, e, &nm) || is_variable_start(f, e, NULL, NULL, &nm)`. `src/kpatch_parse.c:420`, `src/kpatch_parse.c:451`. -/
def startsBlock (ls : List Ln) : Option Bool :=
  match isFunctionStart ls with
  | none => none
  | some (some _) => some true
  | some none => (isVariableStart ls).map (·.isSome)

/-- `flag` of init_other_block.  src/kpatch_parse.c:402-403. -/
inductive ExtFlag where
  | no | iniarr | update
deriving DecidableEq, Repr

/-- The first loop of init_other_block: number of lines taken and `flag`.  src/kpatch_parse.c:421-447. -/
def otherLoop (bs : List Cblock) (flag : ExtFlag) : List Ln → Option (Nat × ExtFlag)
  | [] => some (0, flag)
  | l :: r =>
    match startsBlock (l :: r) with
    | none => none
    | some true => some (0, flag)
    | some false =>
      let flag := if l.dir = .sect ∧ l.sect.name = lit ".init_array" then .iniarr else flag
      if flag ≠ .no ∧ l.dir = .other ∧ isDataDef l.text = true then
        match bs.getLast? with
        | none => some (1, flag)
        | some b =>
          if b.ty = .func ∧ kpstrcmp b.name (symArg l.text) = 0 then some (1, .update)
          else (otherLoop bs flag r).map fun x => (x.1 + 1, x.2)
      else (otherLoop bs flag r).map fun x => (x.1 + 1, x.2)

/-- The second loop of init_other_block.  src/kpatch_parse.c:449-452. -/
def otherRest : List Ln → Option Nat
  | [] => some 0
  | l :: r =>
    match startsBlock (l :: r) with
    | none => none
    | some true => some 0
    | some false => (otherRest r).map (· + 1)

/-- The last block gets a new end. `src/kpatch_parse.c:441`. -/
def extendLast (bs : List Cblock) (e : Nat) : List Cblock :=
  match bs.getLast? with
  | none => bs
  | some b => bs.dropLast ++ [{ b with stop := e }]

/-- src/kpatch_parse.c:405-461 (init_other_block). -/
def initOtherBlock (st : CbState) : Option CbState :=
  (otherLoop st.bs .no (st.ls.drop st.i)).bind fun (n, flag) =>
    match flag with
    | .update => some ⟨st.ls, extendLast st.bs (st.i + n), st.i + n⟩
    | .no => (cblockAdd st.bs ⟨st.i, st.i + n, ⟨[], 0⟩, .other, false, none⟩).map fun bs => ⟨st.ls, bs, st.i + n⟩
    | .iniarr =>
      (otherRest (st.ls.drop (st.i + n))).bind fun m =>
        (cblockAdd st.bs ⟨st.i, st.i + n + m, ⟨[], 0⟩, .other, false, none⟩).map fun bs => ⟨st.ls, bs, st.i + n + m⟩

/-- The name of an attribute block: the line from its first token on.  src/kpatch_parse.c:469-470. -/
def attrName (line : List Byte) : Kpstr :=
  let (nm, _) := getToken (some line)
  ⟨nm.s, nm.s.length⟩

/-- src/kpatch_parse.c:463-474 (init_attr_block). -/
def initAttrBlock (st : CbState) (l : Ln) : Option CbState :=
  let nm := attrName l.text
  if (findByName st.bs nm).isSome then some ⟨st.ls, st.bs, st.i + 1⟩
  else (cblockAdd st.bs ⟨st.i, st.i + 1, nm, .attr, false, none⟩).map fun bs => ⟨st.ls, bs, st.i + 1⟩

/-- One round of the loop of cblocks_init at line `l`.  src/kpatch_parse.c:505-521. -/
def cblockStep (st : CbState) (l : Ln) : Option CbState :=
  if l.text = [] then some { st with i := st.i + 1 }
  else
    match isFunctionStart (st.ls.drop st.i) with
    | none => none
    | some (some nm) => initFuncBlock st nm
    | some none =>
      match isVariableStart (st.ls.drop st.i) with
      | none => none
      | some (some (_, _, nm)) => initVarBlock st nm
      | some none =>
        if l.dir = .set then initSetBlock st l
        else if l.dir = .weak ∨ l.dir = .globl then initAttrBlock st l
        else initOtherBlock st

/-- The loop of cblocks_init, with a bound on the number of rounds.  src/kpatch_parse.c:505-521. -/
def cblocksLoop : Nat → CbState → Option CbState
  | 0, st => some st
  | fuel + 1, st =>
    match st.ls[st.i]? with
    | none => some st
    | some l => (cblockStep st l).bind (cblocksLoop fuel)

/-- The blocks of a file.  The first line is the empty one put there by read_file.  That the bound is enough is part of
C44.  src/kpatch_parse.c:496-522 (cblocks_init). -/
def cblocksInit (ls : List Ln) : Option CbState := cblocksLoop ls.length ⟨ls, [], 1⟩

end Verif
