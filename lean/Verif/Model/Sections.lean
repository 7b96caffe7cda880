import Verif.Model.Parse
/-
Model of the tracking of sections while an assembler file is read, src/kpatch_parse.c.
-/
namespace Verif

variable [AsmTarget]

/-- `struct section_desc` without its links.  `exec` is the bit SECTION_EXECUTABLE of `type`.
src/include/kpatch_parse.h:69-76. -/
structure SectInfo where
  name : List Byte
  exec : Bool
  outname : Option (List Byte)
deriving DecidableEq, Repr

/-- src/kpatch_parse.c:566-605 (predefined_sections). -/
def predefinedSections : List SectInfo :=
  [⟨lit ".bss", false, none⟩,
   ⟨lit ".data", false, none⟩,
   ⟨lit ".init.data", false, none⟩,
   ⟨lit ".text", true, none⟩,
   ⟨lit ".init.text", true, none⟩,
   ⟨lit ".exit.text", true, none⟩,
   ⟨lit ".text.unlikely", true, none⟩,
   ⟨lit ".text.hot", true, none⟩,
   ⟨lit ".fixup", true, some (lit ".kpatch.fixup,\"ax\",@progbits")⟩,
   ⟨lit ".modinfo", false, none⟩,
   ⟨lit "__ex_table", false, some (lit ".kpatch.__ex_table,\"a\",@progbits")⟩,
   ⟨lit "__bug_table", false, some (lit ".kpatch.__bug_table,\"a\"")⟩,
   ⟨lit ".altinstructions", false, some (lit ".kpatch.altinstructions,\"a\"")⟩,
   ⟨lit ".altinstr_replacement", true, some (lit ".kpatch.altinstr_replacement, \"ax\"")⟩,
   ⟨lit ".smp_locks", false, some (lit ".kpatch.smp_locks,\"a\"")⟩,
   ⟨lit ".parainstructions", false, some (lit ".kpatch.parainstructions,\"a\"")⟩,
   ⟨lit "__jump_table", false, some (lit ".kpatch.__jump_table,\"a\"")⟩,
   ⟨lit ".kpatch.text", true, none⟩,
   ⟨lit ".kpatch.init.pre", false, some (lit ".kpatch.init.pre,\"aw\",@progbits")⟩,
   ⟨lit ".kpatch.init", false, some (lit ".kpatch.init,\"aw\",@progbits")⟩,
   ⟨lit ".kpatch.init.post", false, some (lit ".kpatch.init.post,\"aw\",@progbits")⟩,
   ⟨lit ".kpatch.exit.pre", false, some (lit ".kpatch.exit.pre,\"aw\",@progbits")⟩,
   ⟨lit ".kpatch.exit", false, some (lit ".kpatch.exit,\"aw\",@progbits")⟩,
   ⟨lit ".kpatch.exit.post", false, some (lit ".kpatch.exit.post,\"aw\",@progbits")⟩,
   ⟨lit ".discard", true, some (lit ".discard,\"awx\",@progbits")⟩,
   ⟨lit "__ksymtab", false, some (lit ".kpatch.__ksymtab,\"a\"")⟩,
   ⟨lit "__ksymtab_gpl", false, some (lit ".kpatch.__ksymtab,\"a\"")⟩,
   ⟨lit "__kcrctab", false, some (lit ".kpatch.__kcrctab,\"a\"")⟩,
   ⟨lit "__kcrctab_gpl", false, some (lit ".kpatch.__kcrctab,\"a\"")⟩,
   ⟨lit "__kstrtab", false, some (lit ".kpatch.__kstrtab,\"a\"")⟩]

/-- The tree `sections_rbroot_byname` is the list of the sections in it: a search in the tree finds the section with
this name (C36, C41).  src/kpatch_parse.c:616-627 (find_section). -/
def findSection (known : List SectInfo) (name : List Byte) : Option SectInfo := known.find? fun s => s.name = name

/-- The delimiters of a section name: space, tab, `,`, newline, `;`.  src/kpatch_parse.c:669. -/
def sectDelims : List Byte := [32#8, 9#8, 44#8, 10#8, 59#8]

/-- The section name without quotes around it.  With a single quote the length becomes -1 and strndup takes the rest
of the line.  src/kpatch_parse.c:674-679 (__parse_section). -/
def unquoteName (nm : Kpstr) : List Byte :=
  if nm.s.head? = some 34#8 ∧ nm.s[nm.l - 1]? = some 34#8 then
    if nm.l = 1 then nm.s.drop 1 else (nm.s.drop 1).take (nm.l - 2)
  else nm.text

/-- The flags of the section have an `x`; `s` is what follows the section name.
src/kpatch_parse.c:694-703 (__parse_section). -/
def sectAttrExec (s : Option (List Byte)) : Bool :=
  match s with
  | none => false
  | some _ =>
    let (nm, s) := getToken s
    if kpstrcmpz nm (lit ",") ≠ 0 then false
    else
      let (nm, _) := getToken s
      nm.s.head? = some 34#8 && (nm.s.drop 1).find? (fun c => c = 120#8 || c = 34#8) = some 120#8

/-- A `.section` or `.pushsection` line: the section and the sections known after it.
src/kpatch_parse.c:664-708 (__parse_section). -/
def parseSectionLine (known : List SectInfo) (line : List Byte) : SectInfo × List SectInfo :=
  let (_, s) := getToken (some line)
  let (nm, s) := getTokenD sectDelims s
  let sname := unquoteName nm
  match findSection known sname with
  | some sect => (sect, known)
  | none =>
    let sect := ⟨sname, sectAttrExec s, none⟩
    (sect, known ++ [sect])

/-- What the directive does with the section. `src/kpatch_parse.c:664-732`, `src/kpatch_parse.c:734-758` (init_sections). -/
inductive SectStep where
  /-- No section directive: parse_section returns NULL. -/
  | keep
  /-- kpfatal, when dup_section gets NULL. -/
  | fatal
  | change (s : SectInfo) (known : List SectInfo)
deriving DecidableEq, Repr

/-- `dup_section`: the same section.  src/kpatch_parse.c:629-641. -/
def dupSection (known : List SectInfo) : Option SectInfo → SectStep
  | none => .fatal
  | some s => .change s known

/-- `cur` is the current section followed by the chain of its `prev` links.
src/kpatch_parse.c:710-732 (parse_section). -/
def parseSection (known cur : List SectInfo) (dir : Dir) (line : List Byte) : SectStep :=
  match dir with
  | .text => dupSection known (findSection known (lit ".text"))
  | .data => dupSection known (findSection known (lit ".data"))
  | .bss => dupSection known (findSection known (lit ".bss"))
  | .pushsection | .sect =>
    let (s, known) := parseSectionLine known line
    .change s known
  | .popsection | .previous => dupSection known (cur.drop 1).head?
  | .subsection => dupSection known cur.head?
  | _ => .keep

/-- The loop of init_sections over the lines from the second one; the result has the section of every line and the
sections known at the end.  Every new section gets `prev` = the section of the line before.
src/kpatch_parse.c:748-757 (init_sections). -/
def sectionLoop (known cur : List SectInfo) : List (List Byte) → Option (List SectInfo × List SectInfo)
  | [] => some ([], known)
  | l :: ls =>
    match parseSection known cur (parseCtype l) l with
    | .fatal => none
    | .keep => (sectionLoop known cur ls).bind fun r => cur.head?.map fun c => (c :: r.1, r.2)
    | .change s known' => (sectionLoop known' (s :: cur) ls).map fun r => (s :: r.1, r.2)

/-- The sections of all lines of a file.  The sections known are those of the files before, at first the predefined
ones.  The first line is the empty one put there by read_file; its section is `.text`.
src/kpatch_parse.c:734-758 (init_sections). -/
def initSections (known : List SectInfo) : List (List Byte) → Option (List SectInfo × List SectInfo)
  | [] => some ([], known)
  | _ :: ls =>
    (findSection known (lit ".text")).bind fun t => (sectionLoop known [t] ls).map fun r => (t :: r.1, r.2)

end Verif
