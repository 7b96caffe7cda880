import Verif.Model.Parse
/-
Model of the debug information filter, src/kpatch_dbgfilter.c.
-/
namespace Verif

variable [AsmTarget]

/-- `DFO_*`.  src/include/kpatch_dbgfilter.h. `src/include/kpatch_dbgfilter.h:6-9`. -/
structure DfOpts where
  skipEhFrame : Bool
  skipGccExcept : Bool
  skipCfi : Bool
  emitNewlines : Bool
deriving DecidableEq, Repr

/-- A statement and the number of its line, `f->lines[i]` and `f->lines_num[i]`. `src/include/kpatch_io.h:21-23`. -/
abbrev Stmt := List Byte × Nat

/-- `kpstrncmpz(&t, p) == 0` for the first token `t` of the line. `src/include/kpatch_str.h:62-67` (kpstrncmpz). -/
def tokStarts (s : List Byte) (p : List Byte) : Bool := kpstrncmpz (getToken (some s)).1 p = 0

/-- src/kpatch_dbgfilter.c:8-13 (is_cold_hot). -/
def isColdHot (s : List Byte) : Bool := tokStarts s (lit ".LCOLD") || tokStarts s (lit ".LHOT")

/-- src/kpatch_dbgfilter.c:16-21 (is_comment). -/
def isComment (s : List Byte) : Bool := tokStarts s (lit "#")

/-- src/kpatch_dbgfilter.c:24-29 (is_loc_cmd). -/
def isLocCmd (s : List Byte) : Bool := kpstrcmpz (getToken (some s)).1 (lit ".loc") = 0

/-- src/kpatch_dbgfilter.c:32-43 (is_file_cmd). -/
def isFileCmd (s : List Byte) : Bool :=
  let (t, r) := getToken (some s)
  if kpstrcmpz t (lit ".file") ≠ 0 then false
  else
    match r with
    | none => false
    | some r => isDigitChar (r.headD 0)

/-- src/kpatch_dbgfilter.c:46-54 (is_cfi_cmd). -/
def isCfiCmd (s : List Byte) : Bool := tokStarts s (lit ".cfi")

/-- src/kpatch_dbgfilter.c:57-63 (is_debug_lbl). -/
def isDebugLbl (s : List Byte) : Bool :=
  tokStarts s (lit ".LBB") || tokStarts s (lit ".LBE") || tokStarts s (lit ".LFB") || tokStarts s (lit ".LCFI") ||
    tokStarts s (lit ".LFE") || tokStarts s (lit ".LVL")

/-- `f` is the file from the line on.  After `.text` both the line number and the count are increased, so the line
looked at is the one after the next.  src/kpatch_dbgfilter.c:70-85 (skip_ltext_lbl). -/
def skipLtextLbl (f : List Stmt) (s : List Byte) : Nat :=
  let (t, _) := getToken (some s)
  let (l, n) := if kpstrcmpz t (lit ".text") = 0 then (1, 1) else (0, 0)
  let s := (f[l + n]?).map (·.1)
  let (t, _) := getToken s
  if kpstrncmpz t (lit ".Ltext") ≠ 0 ∧ kpstrncmpz t (lit ".Letext") ≠ 0 then 0 else n + 1

/-- src/kpatch_dbgfilter.c:87-103 (is_section_start), for a line that exists. -/
def isSectionStart (s : List Byte) (pre : List Byte) : Bool :=
  if parseCtype s = .sect then
    let (_, r) := getToken (some s)
    let (t, _) := getToken r
    kpstrncmpz t pre = 0
  else false

/-- The inner loop of skip_section: the number of lines it passes, with the `.previous` line that is_section_end passes.
src/kpatch_dbgfilter.c:105-125,132-133 (is_section_end, skip_section). -/
def skipBody : List Stmt → Nat
  | [] => 0
  | (s, _) :: r =>
    if parseCtype s = .previous then 1
    else if parseCtype s ≠ .align ∧ parseCtype s ≠ .label ∧ parseCtype s ≠ .localLabel ∧ isDataDef s = false then 0
    else skipBody r + 1

/-- src/kpatch_dbgfilter.c:127-136 (skip_section). -/
def skipSection (pre : List Byte) (f : List Stmt) : Nat :=
  match f with
  | [] => 0
  | (s, _) :: r => if isSectionStart s pre then skipSection pre (r.drop (skipBody r)) + skipBody r + 1 else 0
termination_by f.length
decreasing_by simp only [List.length_drop, List.length_cons]; omega

/-- The number of lines to drop from the line on.  src/kpatch_dbgfilter.c:154-182 (debug_filter_skip). -/
def debugFilterSkip (o : DfOpts) (f : List Stmt) (s : List Byte) : Nat :=
  if isColdHot s then 1
  else if isComment s then 1
  else if isLocCmd s then 1
  else if isFileCmd s then 1
  else if isDebugLbl s then 1
  else if o.skipCfi && isCfiCmd s then 1
  else if skipLtextLbl f s ≠ 0 then skipLtextLbl f s
  else if skipSection (lit ".debug_") f ≠ 0 then skipSection (lit ".debug_") f
  else if o.skipEhFrame && skipSection (lit ".eh_frame") f ≠ 0 then skipSection (lit ".eh_frame") f
  else if o.skipGccExcept && skipSection (lit ".gcc_except_table") f ≠ 0 then skipSection (lit ".gcc_except_table") f
  else 0

/-- What is written after a statement: a newline at the end of its line, nothing after a label, else `; `.  `none`: the
byte before an empty string is read.  src/kpatch_dbgfilter.c:194-197 (debug_filter), the same as
src/kpatch_gensrc.c:1333-1336 (cblock_write_line). -/
def stmtSep (s : List Byte) (num next : Nat) : Option (List Byte) :=
  if num ≠ next then some [10#8]
  else if s = [] then none
  else if s.getLast? = some 58#8 then some []
  else some [59#8, 32#8]

/-- `clinenum(f, i + 1)` where `r` is the file from the line `i + 1` on.  src/kpatch_parse.c:35-41. -/
def nextNum (r : List Stmt) : Nat := match r with | [] => 0 | (_, n) :: _ => n

/-- The loop of debug_filter over the rest of the file, and the text written.  src/kpatch_dbgfilter.c:184-208. -/
def debugFilterLoop (o : DfOpts) (f : List Stmt) : Option (List Byte) :=
  match f with
  | [] => some []
  | (s, num) :: r =>
    let n := debugFilterSkip o ((s, num) :: r) s
    if n = 0 then
      match stmtSep s num (nextNum r) with
      | none => none
      | some sep => (debugFilterLoop o r).map fun out => s ++ sep ++ out
    else
      let nl := if o.emitNewlines then List.replicate (if n > 16 then 1 else n) 10#8 else []
      (debugFilterLoop o (r.drop (n - 1))).map fun out => nl ++ out
termination_by f.length
decreasing_by
  · simp only [List.length_cons]; omega
  · simp only [List.length_drop, List.length_cons]; omega

/-- The filter starts at index 1: the first statement is the empty line number 0.
src/kpatch_dbgfilter.c:184-208 (debug_filter). -/
def debugFilter (o : DfOpts) (f : List Stmt) : Option (List Byte) := debugFilterLoop o (f.drop 1)

end Verif
