import Verif.Model.Dbgfilter
/-
Specification of the debug information filter: which lines may be removed.
-/
namespace Verif

variable [AsmTarget]

/-- The first token of a line, empty for a blank line. -/
def firstTok (line : List Byte) : List Byte := (getToken (some line)).1.text

/-- The second token. -/
def secondTok (line : List Byte) : List Byte := (getToken (getToken (some line)).2).1.text

/-- Lines with debug information on their own: comments, `.loc`, `.file` with a number, the labels gcc puts for debug
information, and with the option `.cfi` commands. -/
def DebugLine (o : DfOpts) (line : List Byte) : Prop :=
  (∃ p ∈ [lit ".LCOLD", lit ".LHOT", lit "#", lit ".LBB", lit ".LBE", lit ".LFB", lit ".LCFI", lit ".LFE", lit ".LVL",
      lit ".Ltext", lit ".Letext"], p <+: firstTok line) ∨
  firstTok line = lit ".loc" ∨
  (firstTok line = lit ".file" ∧ ∃ c r, (getToken (some line)).2 = some (c :: r) ∧ isDigitChar c = true) ∨
  (o.skipCfi = true ∧ lit ".cfi" <+: firstTok line)

/-- The line switches to a section with debug information, or with the options exception tables. -/
def DebugSect (o : DfOpts) (line : List Byte) : Prop :=
  parseCtype line = .sect ∧
    (lit ".debug_" <+: secondTok line ∨ (o.skipEhFrame = true ∧ lit ".eh_frame" <+: secondTok line) ∨
      (o.skipGccExcept = true ∧ lit ".gcc_except_table" <+: secondTok line))

/-- Alignment, labels and data. -/
def SectData (line : List Byte) : Prop :=
  parseCtype line = .align ∨ parseCtype line = .label ∨ parseCtype line = .localLabel ∨ firstTok line ∈ dataDefs

/-- The commands with which gcc writes data, strings and debug information (`gcc/config/*`: the aligned and unaligned
integer commands of the target, `ASCII_DATA_ASM_OP`, `STRING_ASM_OP`, the command for zeros, and LEB128 numbers),
and the usual ones of hand-written code. -/
def gccData : Isa → List (List Byte)
  | .x86 =>
    [lit ".byte", lit ".value", lit ".long", lit ".quad", lit ".ascii", lit ".string", lit ".zero", lit ".comm",
     lit ".uleb128", lit ".sleb128", lit ".word", lit ".short", lit ".int", lit ".asciz"]
  | .aarch64 =>
    [lit ".byte", lit ".hword", lit ".word", lit ".xword", lit ".2byte", lit ".4byte", lit ".8byte", lit ".ascii",
     lit ".string", lit ".zero", lit ".comm", lit ".uleb128", lit ".sleb128", lit ".short", lit ".long", lit ".quad",
     lit ".int", lit ".asciz"]
  | .riscv =>
    [lit ".byte", lit ".half", lit ".word", lit ".dword", lit ".2byte", lit ".4byte", lit ".8byte", lit ".ascii",
     lit ".string", lit ".zero", lit ".comm", lit ".uleb128", lit ".sleb128", lit ".short", lit ".long", lit ".quad",
     lit ".asciz"]
  | .loongarch =>
    [lit ".byte", lit ".half", lit ".word", lit ".dword", lit ".2byte", lit ".4byte", lit ".8byte", lit ".ascii",
     lit ".string", lit ".space", lit ".comm", lit ".uleb128", lit ".sleb128", lit ".long", lit ".quad", lit ".asciz",
     lit ".zero", lit ".value"]

/-- The commands of the GNU assembler that put data or reserve space for it. -/
def gasData : List (List Byte) :=
  [lit ".ascii", lit ".asciz", lit ".string", lit ".string8", lit ".string16", lit ".string32", lit ".string64",
   lit ".byte", lit ".1byte", lit ".2byte", lit ".4byte", lit ".8byte", lit ".octa", lit ".hword", lit ".half", lit ".short",
   lit ".value", lit ".word", lit ".int", lit ".long", lit ".quad", lit ".dword", lit ".xword", lit ".float", lit ".single",
   lit ".double", lit ".dc", lit ".dc.a", lit ".dc.b", lit ".dc.d", lit ".dc.l", lit ".dc.s", lit ".dc.w", lit ".comm",
   lit ".common", lit ".zero", lit ".fill", lit ".space", lit ".skip", lit ".uleb128", lit ".sleb128"]

/-- Line `l` belongs to a debug section that starts at line `j`: only data between them, and `l` is data or the
`.previous` that ends the section. -/
def InDebugSect (o : DfOpts) (f : List Stmt) (l : Nat) : Prop :=
  ∃ j < l, (∃ x, f[j]? = some x ∧ DebugSect o x.1) ∧ (∀ k, j < k → k < l → ∃ x, f[k]? = some x ∧ SectData x.1) ∧
    ∃ x, f[l]? = some x ∧ (SectData x.1 ∨ parseCtype x.1 = .previous)

/-- Lines `l` and `l + 1` are a `.text` and any line, followed by a `.Ltext` or `.Letext` label. -/
def LtextAt (f : List Stmt) (l : Nat) : Prop :=
  ∃ x y, f[l]? = some x ∧ f[l + 2]? = some y ∧ firstTok x.1 = lit ".text" ∧
    (lit ".Ltext" <+: firstTok y.1 ∨ lit ".Letext" <+: firstTok y.1)

/-- A line the filter may remove. -/
def Removable (o : DfOpts) (f : List Stmt) (l : Nat) : Prop :=
  (∃ x, f[l]? = some x ∧ (DebugLine o x.1 ∨ DebugSect o x.1)) ∨ InDebugSect o f l

/-- Writing the statement at index `l`: its text and what separates it from the next one: a newline if it is the last
of its line, nothing after a label, else a semicolon. -/
def writtenText (f : List Stmt) (l : Nat) : List Byte :=
  match f[l]? with
  | none => []
  | some x =>
    x.1 ++
      if some x.2 ≠ (f[l + 1]?).map (·.2) then lit "\n"
      else if x.1.getLast? = some 58#8 then []
      else lit "; "

end Verif
