import Verif.Model.Cblock
import Verif.Model.Rename
/-
Model of the comparison of the blocks of two assembler files, src/kpatch_gensrc.c.
-/
namespace Verif

/-- `struct cblock`.  `pair` is the start of the paired block, which identifies it in its file.  The flag `handled` is kept
apart (`GenSt`).
src/include/kpatch_parse.h:94-115. -/
structure GBlock where
  start : Nat
  stop : Nat
  name : Kpstr
  human : Kpstr
  ty : BType
  globl : Bool
  adapted : Option Bool
  pair : Option Nat
  ignore : Bool
  unlink : Bool
deriving DecidableEq, Repr

/-- The flag `auto_name`.  src/kpatch_parse.c:253. -/
def GBlock.auto (b : GBlock) : Bool := decide (kpstrcmp b.human b.name ≠ 0)

/-- The block as cblock_add leaves it.  src/kpatch_parse.c:248-258 (cblock_add). -/
def GBlock.new (b : Cblock) : GBlock :=
  ⟨b.start, b.stop, b.name, humanName b.name, b.ty, b.globl, b.adapted, none, false, false⟩

/-- `struct kp_file`: the statements with their directives and sections, the numbers of their lines, the blocks (the tree
`cblocks_by_start`, in its order), the renames, and the two parts of the path.  src/include/kpatch_io.h:14-35. -/
structure GFile where
  ls : List Ln
  nums : List Nat
  bs : List GBlock
  ren : Renames
  basename : List Byte
  dirname : List Byte

/-- The lines of a block. `src/include/kpatch_parse.h:84-86`. -/
def GFile.lines (f : GFile) (b : GBlock) : List Ln := (f.ls.drop b.start).take (b.stop - b.start)

/-! ### Line numbers passed to warning functions -/

/-- src/kpatch_gensrc.c:532-548 (lineno_functions). -/
def linenoFunctions : List (List Byte × List Byte) :=
  [(lit "warn_slowpath_null", lit "esi"), (lit "warn_slowpath_fmt", lit "esi"), (lit "warn_slowpath_fmt_taint", lit "esi"),
   (lit "object_dynamic_cast_assert@PLT", lit "ecx"), (lit "object_class_dynamic_cast_assert@PLT", lit "ecx"),
   (lit "error_setg_internal@PLT", lit "edx"), (lit "error_setg_errno_internal@PLT", lit "edx"),
   (lit "g_assertion_message_expr@PLT", lit "edx"), (lit "__assert_fail@PLT", lit "edx"),
   (lit "__assert_fail@PLT", lit "dx")]

/-- `isspace`. C library; used by sscanf at `src/kpatch_gensrc.c:553`. -/
def isSpaceChar (c : Byte) : Bool := c = 32#8 || (9 ≤ c.toNat && c.toNat ≤ 13)

/-- A literal in a scanf format. C library; used by sscanf at `src/kpatch_gensrc.c:553`. -/
def scanLit (p s : List Byte) : Option (List Byte) := if p.isPrefixOf s then some (s.drop p.length) else none

/-- `%*i` of scanf: the rest after the number. C library; used by sscanf at `src/kpatch_gensrc.c:553`. -/
def scanInt (s : List Byte) : Option (List Byte) :=
  let s := s.dropWhile isSpaceChar
  let s := match s with
    | c :: r => if c = 43#8 || c = 45#8 then r else s
    | [] => s
  match s with
  | 48#8 :: c :: r =>
    if c = 120#8 || c = 88#8 then
      some (r.dropWhile fun c => isDigitChar c || (97 ≤ c.toNat && c.toNat ≤ 102) || (65 ≤ c.toNat && c.toNat ≤ 70))
    else some ((c :: r).dropWhile fun c => 48 ≤ c.toNat && c.toNat ≤ 55)
  | c :: r => if isDigitChar c then some (r.dropWhile isDigitChar) else none
  | [] => none

/-- `[a-zA-Z0-9]`. Used by sscanf at `src/kpatch_gensrc.c:553`. -/
def isAlnumChar (c : Byte) : Bool :=
  isDigitChar c || (97 ≤ c.toNat && c.toNat ≤ 122) || (65 ≤ c.toNat && c.toNat ≤ 90)

/-- `sscanf(s, " mov%*c $%*i, %%%31[a-zA-Z0-9]", regname)`: the register, empty when the line does not match.  When the
line ends too early sscanf returns EOF, which the caller takes for a match, with an empty name; no function has an empty
register.  src/kpatch_gensrc.c:550-554 (get_mov_const_reg). -/
def movConstReg (s : List Byte) : List Byte :=
  ((scanLit (lit "mov") (s.dropWhile isSpaceChar)).bind fun s =>
    (scanLit (lit "$") ((s.drop 1).dropWhile isSpaceChar)).bind fun s =>
      (scanInt s).bind fun s =>
        (scanLit (lit ",") s).bind fun s =>
          (scanLit (lit "%") (s.dropWhile isSpaceChar)).map fun s => (s.takeWhile isAlnumChar).take 31).getD []

/-- The indices of the functions that may be called; the bit mask of the source.
src/kpatch_gensrc.c:560-582 (get_possible_lineno_funcs). -/
def possibleFuncs (s0 s1 : List Byte) : List Nat :=
  let r := movConstReg s0
  if r ≠ [] ∧ movConstReg s1 = r then
    (List.range linenoFunctions.length).filter fun i => decide ((linenoFunctions[i]?).map (·.2) = some r)
  else []

/-- The called function is one of the possible ones.  src/kpatch_gensrc.c:643-662 (match_lineno_func). -/
def linenoCall (poss : List Nat) (s : List Byte) : Bool :=
  poss.any fun i =>
    match linenoFunctions[i]? with
    | some (nm, _) => kpstrcmpz (getToken (getToken (some s)).2).1 nm = 0
    | none => false

/-- The loop of match_lineno_func: the lines after the call.  src/kpatch_gensrc.c:615-639. -/
def linenoLoop (r0 r1 : Renames) : Nat → List Nat → List Ln → List Ln → Option (List Ln × List Ln)
  | 0, _, _, _ => none
  | _, _, [], _ => none
  | _, _, _ :: _, [] => none
  | n + 1, poss, a :: l0, b :: l1 =>
    let poss := poss.filter fun i => !(possibleFuncs a.text b.text).contains i
    if poss = [] then none
    else if strcmpAfterRename r0 r1 (some a.text) (some b.text) ≠ 0 then none
    else if kpstrcmpz (getToken (some a.text)).1 (lit "call") = 0 then
      if linenoCall poss a.text then some (l0, l1) else none
    else linenoLoop r0 r1 n poss l0 l1

/-- The two lines load line numbers for the same function: the lines after its call.
src/kpatch_gensrc.c:585-663 (match_lineno_func). -/
def matchLineno (r0 r1 : Renames) (a b : Ln) (l0 l1 : List Ln) : Option (List Ln × List Ln) :=
  let poss := possibleFuncs a.text b.text
  if poss = [] then none else linenoLoop r0 r1 15 poss l0 l1

/-! ### Other differences that are ignored -/

/-- src/include/kpatch_str.h:22-28 (kpstrskip). -/
def kpstrskip (x : Kpstr) (n : Nat) : Kpstr := ⟨x.s.drop n, x.l - n⟩

/-- Strings with the directory of the file at their start.  The second comparison with `.string` tests the first line
again.  src/kpatch_gensrc.c:665-691 (match_build_path). -/
def matchBuildPath (d0 d1 : List Byte) (a b : Ln) : Bool :=
  let (t0, s0) := getToken (some a.text)
  let (_, s1) := getToken (some b.text)
  if kpstrcmpz t0 (lit ".string") ≠ 0 ∨ kpstrcmpz t0 (lit ".string") ≠ 0 then false
  else
    let (t0, _) := getToken s0
    let (t1, _) := getToken s1
    if kpstrncmpz t0 (lit "\"") ≠ 0 ∨ kpstrncmpz t1 (lit "\"") ≠ 0 then false
    else
      let t0 := kpstrskip t0 1
      let t1 := kpstrskip t1 1
      if kpstrncmpz t0 d0 ≠ 0 ∨ kpstrncmpz t1 d1 ≠ 0 then false
      else kpstrcmp (kpstrskip t0 d0.length) (kpstrskip t1 d1.length) = 0

/-- The prefix of the names of debug descriptors.  src/kpatch_gensrc.c:700. -/
def descStr : List Byte := lit "descriptor."

/-- src/kpatch_gensrc.c:694-710 (match_var_descriptor). -/
def matchDescriptor (n0 n1 : Kpstr) (a b : Ln) : Bool :=
  kpstrncmpz n0 descStr = 0 && kpstrncmpz n1 descStr = 0 &&
    kpstrcmpz (getToken (some a.text)).1 (lit ".byte") = 0 && kpstrcmpz (getToken (some b.text)).1 (lit ".byte") = 0

/-- The option --os. `src/kpatch_gensrc.c:23-25`. -/
inductive GenOs where
  | rhel5 | rhel6
deriving DecidableEq, Repr

/-- The delimiters space, tab, `,`, `;`. `src/kpatch_gensrc.c:763-766`. -/
def bugDelims : List Byte := [32#8, 9#8, 44#8, 59#8]

/-- One line of the form `ud2 ; pushq X ; ret X`.  src/kpatch_gensrc.c:754-776 (match_bug_on). -/
def bugLine5 (s : List Byte) : Bool :=
  let (t0, s) := getToken (some s)
  let (t1, s) := getToken s
  let (t2, s) := getToken s
  let (_, s) := getTokenD bugDelims s
  let (t4, s) := getToken s
  let (t5, s) := getToken s
  let (_, s) := getTokenD bugDelims s
  kpstrcmpz t0 (lit "ud2") = 0 && kpstrcmpz t1 (lit ";") = 0 && kpstrcmpz t2 (lit "pushq") = 0 &&
    kpstrcmpz t4 (lit ";") = 0 && kpstrcmpz t5 (lit "ret") = 0 && s.isNone

/-- src/kpatch_gensrc.c:749-802 (match_bug_on). -/
def matchBugOn (os : GenOs) (a b : Ln) : Bool :=
  match os with
  | .rhel5 => bugLine5 a.text && bugLine5 b.text
  | .rhel6 =>
    if a.sect.name ≠ lit "__bug_table" ∨ b.sect.name ≠ lit "__bug_table" then false
    else if (lit "2:\t.long 1b - 2b, ").isPrefixOf a.text ∧ (lit "2:\t.long 1b - 2b, ").isPrefixOf b.text then true
    else kpstrcmpz (getToken (some a.text)).1 (lit ".word") = 0 && kpstrcmpz (getToken (some b.text)).1 (lit ".word") = 0

/-! ### The comparison -/

/-- The line is skipped.  src/kpatch_gensrc.c:804-822 (cblock_cmp_skip). -/
def skippedLine (l : Ln) : Bool := isSectCmd l.dir || l.dir = .globl || l.text = []

theorem linenoLoop_length (r0 r1 : Renames) : ∀ (n : Nat) (poss : List Nat) (l0 l1 m0 m1 : List Ln),
    linenoLoop r0 r1 n poss l0 l1 = some (m0, m1) → m0.length < l0.length := by
  intro n
  induction n with
  | zero => intro poss l0 l1 m0 m1 h; simp [linenoLoop] at h
  | succ n ih =>
    intro poss l0 l1 m0 m1 h
    cases l0 with
    | nil => simp [linenoLoop] at h
    | cons a l0 =>
      cases l1 with
      | nil => simp [linenoLoop] at h
      | cons b l1 =>
        rw [linenoLoop] at h
        split at h
        · cases h
        · split at h
          · cases h
          · split at h
            · split at h
              · simp only [Option.some.injEq, Prod.mk.injEq] at h
                rw [h.1]
                simp
              · cases h
            · have := ih _ _ _ _ _ h
              simp only [List.length_cons]
              omega

theorem matchLineno_length (r0 r1 : Renames) (a b : Ln) (l0 l1 m0 m1 : List Ln)
    (h : matchLineno r0 r1 a b l0 l1 = some (m0, m1)) : m0.length < l0.length := by
  unfold matchLineno at h
  dsimp only at h
  split at h
  · cases h
  · exact linenoLoop_length _ _ _ _ _ _ _ _ h

/-- What the comparison of two blocks depends on: the option --os, the renames and directories of the files, type and
names of the blocks, the flags CBLOCK_CMP_SECT and CBLOCK_CMP_RENAME. `src/kpatch_gensrc.c:804-880`. -/
structure CmpCtx where
  os : GenOs
  r0 : Renames
  r1 : Renames
  d0 : List Byte
  d1 : List Byte
  ty : BType
  n0 : Kpstr
  n1 : Kpstr
  sect : Bool
  ren : Bool

/-- The lines have different sections.  src/kpatch_gensrc.c:845-848 (cblock_cmp). -/
def sectDiffers (a b : Ln) : Bool :=
  decide (a.sect.name ≠ b.sect.name) && a.dir ≠ .lcl && a.dir ≠ .comm && b.dir ≠ .lcl && b.dir ≠ .comm

/-- The lines are the same.  src/kpatch_gensrc.c:850-859 (cblock_cmp). -/
def lineSame (c : CmpCtx) (a b : Ln) : Bool :=
  (a.dir = .comment && b.dir = .comment) ||
    (if c.ren then decide (strcmpAfterRename c.r0 c.r1 (some a.text) (some b.text) = 0) else a.text = b.text)

/-- The difference of the lines is ignored.  src/kpatch_gensrc.c:863-871 (cblock_cmp). -/
def diffIgnored (c : CmpCtx) (a b : Ln) : Bool :=
  (c.ty = .func && matchBugOn c.os a b) ||
    (c.ty = .var && (matchBuildPath c.d0 c.d1 a b || matchDescriptor c.n0 c.n1 a b))

/-- The loop of cblock_cmp over the rest of the two blocks; `true`: no difference.
src/kpatch_gensrc.c:827-880 (cblock_cmp). -/
def cmpLines (c : CmpCtx) (l0 l1 : List Ln) : Bool :=
  match h : l0.dropWhile skippedLine, l1.dropWhile skippedLine with
  | [], [] => true
  | [], _ :: _ => false
  | _ :: _, [] => false
  | a :: l0', b :: l1' =>
    if c.sect && sectDiffers a b then false
    else if lineSame c a b then cmpLines c l0' l1'
    else
      match hm : (if c.ty = .func then matchLineno c.r0 c.r1 a b l0' l1' else none) with
      | some (m0, m1) => cmpLines c m0 m1
      | none => if diffIgnored c a b then cmpLines c l0' l1' else false
termination_by l0.length
decreasing_by
  · have := (List.dropWhile_suffix (l := l0) skippedLine).length_le
    rw [h] at this
    simp only [List.length_cons] at this
    omega
  · have := (List.dropWhile_suffix (l := l0) skippedLine).length_le
    rw [h] at this
    simp only [List.length_cons] at this
    split at hm
    · have := matchLineno_length _ _ _ _ _ _ _ _ hm
      omega
    · cases hm
  · have := (List.dropWhile_suffix (l := l0) skippedLine).length_le
    rw [h] at this
    simp only [List.length_cons] at this
    omega

/-- The context of a comparison of two blocks. `src/kpatch_gensrc.c:827-880` (cblock_cmp). -/
def cmpCtx (os : GenOs) (f0 f1 : GFile) (b0 b1 : GBlock) (sect ren : Bool) : CmpCtx :=
  ⟨os, f0.ren, f1.ren, f0.dirname, f1.dirname, b0.ty, b0.name, b1.name, sect, ren⟩

/-- `true`: the function returns 0.  The section of a line is never NULL.
src/kpatch_gensrc.c:827-880 (cblock_cmp). -/
def cblockSame (os : GenOs) (f0 f1 : GFile) (b0 b1 : GBlock) (sect ren : Bool) : Bool :=
  cmpLines (cmpCtx os f0 f1 b0 b1 sect ren) (f0.lines b0) (f1.lines b1)

end Verif
