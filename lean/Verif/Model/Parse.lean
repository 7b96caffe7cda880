import Verif.Model.Kpstr
import Verif.Model.Isa
/-
Model of the classification of assembler lines and of the splitting of lines into statements,
src/kpatch_parse.c and src/arch/*/arch_parse.c.  The lines cited are those of x86; on the other architectures the
functions of the same names have the same text except for what is said here.
-/
namespace Verif

variable [AsmTarget]

/-- Comments may start with `//`: only on AArch64. `src/arch/aarch64/arch_parse.c:241-242`,
`src/arch/aarch64/arch_parse.c:292-293`. -/
def slashComments : Bool := AsmTarget.isa = .aarch64

/-- `DIRECTIVE_*`.  src/include/kpatch_parse.h:17-46. -/
inductive Dir where
  | align | type | comm | weak | size | label | localLabel
  | globl | lcl | hidden | prot | internal
  | text | data | bss
  | sect | pushsection | popsection | subsection | previous
  | comment | set | other | kpflags
deriving DecidableEq, Repr

/-- src/kpatch_parse.c:94-124 (asm_directives). -/
def asmDirectives : List (Dir × List Byte) :=
  [(.align, lit ".align"), (.align, lit ".p2align"),
   (.type, lit ".type"), (.comm, lit ".comm"), (.size, lit ".size"), (.weak, lit ".weak"),
   (.text, lit ".text"), (.data, lit ".data"), (.bss, lit ".bss"), (.sect, lit ".section"),
   (.pushsection, lit ".pushsection"), (.popsection, lit ".popsection"), (.previous, lit ".previous"),
   (.subsection, lit ".subsection"),
   (.globl, lit ".globl"), (.globl, lit ".global"),
   (.lcl, lit ".local"), (.hidden, lit ".hidden"), (.prot, lit ".protected"), (.internal, lit ".internal"),
   (.set, lit ".set"), (.kpflags, lit ".kpgensrc_flags")]

/-- `none` is -1.  src/kpatch_parse.c:143-151 (find_ctype). -/
def findCtype (t : Kpstr) : Option Dir := (asmDirectives.find? fun d => kpstrcmpz t d.2 = 0).map (·.1)

/-- `isdigit`. C library; used at `src/kpatch_parse.c:228-235`. -/
def isDigitChar (c : Byte) : Bool := 48 ≤ c.toNat && c.toNat ≤ 57

/-- src/arch/x86/arch_parse.c:261-285 (parse_ctype), src/arch/aarch64/arch_parse.c:282-309. -/
def parseCtype (origs : List Byte) : Dir :=
  let s := skipBlanks origs
  if s.head? = some 35#8 ∨ (slashComments = true ∧ s.head? = some 47#8 ∧ (s.drop 1).head? = some 47#8) then .comment
  else
    let (t, s') := getToken (some s)
    match findCtype t with
    | some d => d
    | none =>
      match s' with
      | some r =>
        if r.head? = some 58#8 then
          if isDigitChar (t.s.headD 0) then .localLabel else .label
        else .other
      | none => .other

/-- The directives that define data.  src/arch/x86/arch_parse.c:88-112, src/arch/aarch64/arch_parse.c:77-131,
src/arch/riscv64/arch_parse.c:89-107, src/arch/loongarch64/arch_parse.c:74-95 (is_data_def). -/
def dataDefs : List (List Byte) :=
  match AsmTarget.isa with
  | .x86 =>
    [lit ".ascii", lit ".asciz", lit ".string", lit ".byte", lit ".word", lit ".short", lit ".int", lit ".long",
     lit ".quad", lit ".double", lit ".float", lit ".single", lit ".value", lit ".comm", lit ".zero", lit ".uleb128",
     lit ".sleb128", lit ".4byte"]
  | .aarch64 =>
    [lit ".ascii", lit ".asciz", lit ".string", lit ".string8", lit ".string16", lit ".string32",
     lit ".string64", lit ".byte", lit ".1byte", lit ".dc.b", lit ".hword", lit ".short", lit ".2byte",
     lit ".dc", lit ".dc.w", lit ".value", lit ".octa", lit ".word", lit ".4byte", lit ".long", lit ".int",
     lit ".dc.l", lit ".dc.a", lit ".quad", lit ".8byte", lit ".xword", lit ".dc.a", lit ".short", lit ".int",
     lit ".long", lit ".quad", lit ".double", lit ".dc.d", lit ".float", lit ".single", lit ".dc.s",
     lit ".value", lit ".comm", lit ".zero", lit ".fill", lit ".space", lit ".skip", lit ".uleb128",
     lit ".sleb128"]
  | .riscv =>
    [lit ".comm", lit ".common", lit ".string", lit ".asciz", lit ".byte", lit ".2byte", lit ".half", lit ".short",
     lit ".4byte", lit ".word", lit ".long", lit ".8byte", lit ".dword", lit ".quad", lit ".sleb128", lit ".uleb128",
     lit ".zero"]
  | .loongarch =>
    [lit ".ascii", lit ".asciz", lit ".string", lit ".byte", lit ".half", lit ".word", lit ".dword",
     lit ".long", lit ".quad", lit ".value", lit ".comm", lit ".zero", lit ".space", lit ".uleb128",
     lit ".sleb128", lit ".8byte", lit ".4byte"]

/-- src/arch/x86/arch_parse.c:83-115 (is_data_def). -/
def isDataDef (s : List Byte) : Bool :=
  let (t, _) := getToken (some s)
  dataDefs.any fun d => kpstrcmpz t d = 0

/-! ### Statements -/

/-- How the scan of one statement ended: at a comment, or after `len` bytes with the pointer `rest`. `src/kpatch_parse.c` (init_multilines). -/
inductive StmtEnd where
  | comment
  | cut (len : Nat) (rest : Option (List Byte))
deriving DecidableEq, Repr

/-- The loop over the tokens of the statement that starts at `s`; `se` is the current position.
src/arch/x86/arch_parse.c:215-239, src/arch/aarch64/arch_parse.c:236-260 (init_multilines). -/
def scanStmt (s : List Byte) (se : Option (List Byte)) (first : Bool) : StmtEnd :=
  match se with
  | none => .cut s.length none
  | some e =>
    match h : getToken (some e) with
    | (t, se') =>
      if t.l = 1 ∧ t.s.head? = some 35#8 then .comment
      else if slashComments = true ∧ t.l = 2 ∧ t.s.head? = some 47#8 ∧ (t.s.drop 1).head? = some 47#8 then .comment
      else if t.l = 1 ∧ t.s.head? = some 59#8 then .cut (s.length - t.s.length) se'
      else
        match se' with
        | none => .cut s.length none
        | some e' =>
          if first = true ∧ e'.head? = some 58#8 ∧ e'.drop 1 ≠ [] then
            .cut (s.length - e'.length + 1) (some (e'.drop 1))
          else scanStmt s (some e') false
termination_by se.elim 0 (fun s => s.length + 1)
decreasing_by
  have : (getToken (some e)).2 = some e' := by rw [h]
  have := getTokenD_length delims this
  simp only [Option.elim_some]
  omega

theorem scanStmt_rest (s : List Byte) (se : Option (List Byte)) (first : Bool) (n : Nat) (r : List Byte)
    (h : scanStmt s se first = .cut n (some r)) : ∃ e, se = some e ∧ r.length < e.length := by
  match se with
  | none => rw [scanStmt] at h; simp at h
  | some e =>
    refine ⟨e, rfl, ?_⟩
    rw [scanStmt] at h
    split at h
    rename_i t se' hg
    split at h
    · cases h
    split at h
    · cases h
    · split at h
      · simp only [StmtEnd.cut.injEq] at h
        obtain ⟨_, rfl⟩ := h
        exact getTokenD_length delims (show (getTokenD delims (some e)).2 = some r by
          rw [show getTokenD delims (some e) = _ from hg])
      · split at h
        · simp at h
        · rename_i e' _
          have hl := getTokenD_length delims (show (getTokenD delims (some e)).2 = some e' by
            rw [show getTokenD delims (some e) = _ from hg])
          split at h
          · simp only [StmtEnd.cut.injEq, Option.some.injEq] at h
            obtain ⟨_, rfl⟩ := h
            rw [List.length_drop]
            omega
          · obtain ⟨e'', h1, h2⟩ := scanStmt_rest s (some e') false n r h
            simp only [Option.some.injEq] at h1
            subst h1
            omega
termination_by se.elim 0 (fun s => s.length + 1)
decreasing_by
  simp only [Option.elim_some]
  omega

/-- The statements of a line with `;` or `:` in it, each with a flag that is false for a statement that ends with a
comment.  src/arch/x86/arch_parse.c:214-253 (init_multilines). -/
def splitStmts (s : List Byte) : List (List Byte × Bool) :=
  if s = [] then []
  else
    match h : scanStmt s (some s) true with
    | .comment => [(s, false)]
    | .cut n none => [(s.take n, true)]
    | .cut n (some r) => (s.take n, true) :: splitStmts r
termination_by s.length
decreasing_by
  obtain ⟨e, h1, h2⟩ := scanStmt_rest s (some s) true n r h
  simp only [Option.some.injEq] at h1
  subst h1
  omega

/-- The statements of a line.  src/arch/x86/arch_parse.c:212-253 (init_multilines). -/
def splitLine (s : List Byte) : List (List Byte × Bool) :=
  if s.any fun c => c = 59#8 || c = 58#8 then splitStmts s else [(s, false)]

/-- The loop of init_multilines over the lines from number `i`, with `nr` statements stored in arrays of `sz`
(the arrays do not exist before the first line); `none`: kpfatal, too many statements in a line.
src/arch/x86/arch_parse.c:205-254. -/
def splitLines (lines : List (List Byte)) (i nr sz : Nat) : Option (List (List Byte × Nat)) :=
  match lines with
  | [] => some []
  | s :: rest =>
    let sz := if nr + 1000 ≥ sz ∨ i = 0 then sz * 2 else sz
    let ps := splitLine s
    let checked := (ps.filter (·.2)).length
    if 0 < checked ∧ nr + checked ≥ sz then none
    else (splitLines rest (i + 1) (nr + ps.length) sz).map fun out => ps.map (fun p => (p.1, i)) ++ out

/-- The statements of a file and the numbers of their lines.  The first line, number 0, is the empty line put there by
read_file.  src/arch/x86/arch_parse.c:197-259 (init_multilines). -/
def initMultilines (lines : List (List Byte)) : Option (List (List Byte × Nat)) := splitLines lines 0 0 64

end Verif
