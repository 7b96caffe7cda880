import Verif.Model.Reloc
import Verif.Model.Symbols
import Verif.Model.Kpstr
/-
The rewriting of relocations of a linked patch, `kpatch_strip --rel-fixup`: `kpatch_rel_fixup` of `src/kpatch_strip.c`
with `src/arch/x86/arch_strip.c` and the parts of `src/kpatch_elf_objinfo.c` it uses.  x86-64.

The ELF library is not modelled: a file is the list of its sections, symbols and relocations, already decoded; errors of
the library's calls on well-formed files are left out.  All relocation sections refer to the one symbol table.
-/
namespace Verif

/-- A section: its name and `sh_addr`. Used at `src/kpatch_elf_objinfo.c:58-75`, `src/kpatch_strip.c:286-303`. -/
structure FixSec where
  name : CStr
  addr : BitVec 64
  deriving DecidableEq, Repr

/-- A symbol with its name. Used at `src/kpatch_strip.c:325-335`. -/
structure FixSym where
  name : CStr
  sym : Sym
  deriving DecidableEq, Repr

/-- The types of dynamic relocations as far as `kpatch_is_tls_rela` distinguishes them,
`src/include/kpatch_elf_objinfo.h:82-88`. -/
inductive X86Dyn where
  | tpoff64 | dtpoff64 | dtpmod64 | other
  deriving DecidableEq, Repr

/-- An entry of `.rela.dyn`. Used at `src/kpatch_elf_objinfo.c:164-212`. -/
structure DynRel where
  offset : BitVec 64
  typ : X86Dyn
  sym : Nat
  addend : BitVec 64
  deriving DecidableEq, Repr

/-- `kpatch_objinfo` as far as it is used here, `src/include/kpatch_elf_objinfo.h:5-32`: the sections (number 0 is the
null section), the symbols, the names of the dynamic symbols and `.rela.dyn` if there is one.  `tlsSize` is the size of
the thread-local segment, rounded up to its alignment; the code never looks at it. -/
structure FixObj where
  secs : List FixSec
  syms : List FixSym
  dynNames : List CStr := []
  relaDyn : Option (List DynRel) := none
  tlsSize : Nat := 0
  deriving DecidableEq, Repr

/-- The numbers of the sections whose name begins with `.kpatch`, from number `i` on: `kpatch_objinfo_load`,
`src/kpatch_elf_objinfo.c:58-75`. -/
def kpatchSectionsFrom : List FixSec → Nat → List Nat
  | [], _ => []
  | s :: ss, i =>
    if (lit ".kpatch").isPrefixOf s.name then i :: kpatchSectionsFrom ss (i + 1) else kpatchSectionsFrom ss (i + 1)

/-- `kpatch_objinfo_load`, `src/kpatch_elf_objinfo.c:43-95`, the array `_kpatch_sections`; `none`: there are more than
sixteen.  Section numbers are below 65536 (`unsigned short`). -/
def kpatchSections (o : FixObj) : Option (List Nat) :=
  let l := kpatchSectionsFrom (o.secs.drop 1) 1
  if l.length > 16 then none else some l

/-- `kpatch_objinfo_is_our_section`, `src/kpatch_elf_objinfo.c:151-161`, on the array filled by
`kpatch_objinfo_load`. -/
def isOurSection (ours : List Nat) (n : Nat) : Bool := ours.contains n

/-- `kpatch_is_tls_rela`, `src/include/kpatch_elf_objinfo.h:82-88`. -/
def isTlsRela (d : DynRel) : Bool := d.typ == .tpoff64 || d.typ == .dtpoff64 || d.typ == .dtpmod64

/-- `kpatch_objinfo_load_tls_reladyn`, `src/kpatch_elf_objinfo.c:164-212`: `.rela.dyn` from the first to the last
relocation of thread-local storage; `none`: failed. -/
def loadTlsReladyn (o : FixObj) : Option (List DynRel) :=
  match o.relaDyn with
  | none => none
  | some l =>
    let l := l.dropWhile fun d => !isTlsRela d
    let l := (l.reverse.dropWhile fun d => !isTlsRela d).reverse
    if l.isEmpty then none else some l

/-- The loop of `objinfo_find_tls_got_by_offset`, `src/arch/x86/arch_strip.c:55-62`. -/
def tlsGotByOffset (off : BitVec 64) : List DynRel → Option (BitVec 64)
  | [] => none
  | d :: ds =>
    if !isTlsRela d then tlsGotByOffset off ds
    else if d.sym == 0 && d.addend == off then some d.offset
    else tlsGotByOffset off ds

/-- The loop of `objinfo_find_tls_got_by_symname`, `src/arch/x86/arch_strip.c:82-101`; `none` also when the dynamic
symbol does not exist (the library's call fails, fatal). -/
def tlsGotByName (names : List CStr) (name : CStr) : List DynRel → Option (BitVec 64)
  | [] => none
  | d :: ds =>
    if !isTlsRela d then tlsGotByName names name ds
    else if d.sym == 0 || d.addend != 0#64 then tlsGotByName names name ds
    else match names[d.sym]? with
      | none => none
      | some n => if n == name then some d.offset else tlsGotByName names name ds

/-- `update_reloc_with_tls_got_entry`, `src/arch/x86/arch_strip.c:107-151`: the new addend; `none`: refused or fatal.
The C code cuts the name at the `@` in the string table itself; here later uses of the name see it whole (that would
only matter to a `TPOFF32` relocation against the same symbol, which is undefined). -/
def tlsGotEntry (orig : FixObj) (s : FixSym) : Option (BitVec 64) :=
  let name := s.name.takeWhile (· != 0x40#8)
  if s.sym.bind = .loc ∨ s.sym.shndx ≠ 0 then (loadTlsReladyn orig).bind (tlsGotByOffset s.sym.value)
  else if s.sym.bind = .glob then (loadTlsReladyn orig).bind (tlsGotByName orig.dynNames name)
  else none

/-- `kpatch_get_symbol_offset_rel_section`, `src/kpatch_strip.c:270-309`: the symbol's offset in its section, for
thread-local symbols in their segment. -/
def symOffsetInSection (o : FixObj) (s : Sym) : Option (BitVec 64) :=
  if s.typ = .tls then some s.value
  else match o.secs[s.shndx]? with
    | none => none
    | some sec => if sec.addr > s.value then none else some (s.value - sec.addr)

/-- `kpatch_get_original_symbol_loc`, `src/kpatch_strip.c:311-344`, called with no place for the section's name: `none`
also when the symbol found is not thread-local, where the C code stores the name through a null pointer (306). -/
def origTlsLoc (orig : FixObj) (name : CStr) : Option (BitVec 64) :=
  match orig.syms.find? fun s => s.name == name with
  | none => none
  | some s => if s.sym.shndx = 0 then none else if s.sym.typ ≠ .tls then none else symOffsetInSection orig s.sym

/-- The search of `kpatch_get_local_symbol_loc`, `src/kpatch_strip.c:356-368`: the number of the first section symbol of
the section, from number `i` on. -/
def sectionSymFrom (shndx : Nat) : List FixSym → Nat → Option Nat
  | [], _ => none
  | s :: ss, i => if s.sym.typ = .sect ∧ s.sym.shndx = shndx then some i else sectionSymFrom shndx ss (i + 1)

/-- `kpatch_get_local_symbol_loc`, `src/kpatch_strip.c:346-375`: the section's symbol and the offset in the section. -/
def localSymLoc (o : FixObj) (s : Sym) : Option (Nat × BitVec 64) :=
  match sectionSymFrom s.shndx o.syms 0 with
  | none => none
  | some i => (symOffsetInSection o s).map fun off => (i, off)

/-- `R_X86_64_PLT32`, number 4 in `<elf.h>`; the types the relocation at run time does not know are kept as numbers.
Used at `src/kpatch_strip.c:502-504`. -/
def plt32 : X86Rel := .other 4

/-- `kpatch_arch_fixup_rela_update_tls`, `src/arch/x86/arch_strip.c:179-229`. -/
def updateTls (orig : FixObj) (s : FixSym) (r : Rela X86Rel) : Option (Rela X86Rel) :=
  match r.typ with
  | .tpoff32 =>
    match origTlsLoc orig s.name with
    | none => none
    | some off => if off ≠ s.sym.value then none else some { r with sym := 0, typ := .none }
  | .gottpoff => (tlsGotEntry orig s).map fun got => { r with addend := got }
  | _ => none

/-- The switch over `GOTPCREL` types, `src/kpatch_strip.c:478-481`. -/
def isGotPcrel : X86Rel → Bool
  | .gotpcrel | .rexGotpcrelx | .gotpcrelx => true
  | _ => false

/-- The change of a `mov` to a `lea`, `src/kpatch_strip.c:482-487`; `none`: the byte lies outside the section's contents,
where the C code accesses other memory. -/
def movToLea (shAddr : Nat) (r : Rela X86Rel) (text : List Byte) : Option (List Byte) :=
  if r.offset < shAddr + 2 then none
  else match text[r.offset - shAddr - 2]? with
    | none => none
    | some b => some (if b = 0x8b#8 then text.set (r.offset - shAddr - 2) 0x8d#8 else text)

/-- `plt32_to_pc32` of `kpatch_fixup_rela_one`, `src/kpatch_strip.c:501-504`. -/
def pltToPc (r : Rela X86Rel) : Rela X86Rel := if r.typ = plt32 then { r with typ := .pc32 } else r

/-- `kpatch_fixup_rela_one`, `src/kpatch_strip.c:398-506`, on one relocation of a section at `shAddr` (before the link is
undone `r_offset` is an address) with the contents `text`; `none`: refused, fatal or undefined.  On x86-64
`kpatch_arch_fixup_rela_copy` does nothing (`src/arch/x86/arch_strip.c:231-236`), so the symbol is never updated. -/
def fixupRelaOne (orig patch : FixObj) (ours : List Nat) (shAddr : Nat) (r : Rela X86Rel) (text : List Byte) :
    Option (Rela X86Rel × List Byte) :=
  match patch.syms[r.sym]? with
  | none => none
  | some s =>
    if s.sym.typ = .sect then some (r, text)
    else if s.sym.typ = .tls then (updateTls orig s r).map fun r' => (r', text)
    else if isOurSection ours s.sym.shndx then some (pltToPc r, text)
    else if s.sym.typ ≠ .notype ∧ s.sym.typ ≠ .func ∧ s.sym.typ ≠ .object ∧ s.sym.bind ≠ .loc then none
    else
      let r1 := if s.sym.bind = .loc ∧ s.name.head? = some 0x2e#8 then
          (localSymLoc patch s.sym).map fun (i, off) => { r with sym := i, addend := r.addend + off }
        else some r
      match r1 with
      | none => none
      | some r1 =>
        if s.sym.shndx ≠ 0 ∧ isGotPcrel r1.typ then
          (movToLea shAddr r1 text).map fun text' => (pltToPc r1, text')
        else some (pltToPc r1, text)

/-- The loop of `kpatch_fixup_rela`, `src/kpatch_strip.c:542-572`. -/
def fixupRelaGo (orig patch : FixObj) (ours : List Nat) (shAddr : Nat) :
    List (Rela X86Rel) → List Byte → Option (List (Rela X86Rel) × List Byte)
  | [], text => some ([], text)
  | r :: rs, text =>
    match fixupRelaOne orig patch ours shAddr r text with
    | none => none
    | some (r', text') =>
      match fixupRelaGo orig patch ours shAddr rs text' with
      | none => none
      | some (rs', text'') => some (r' :: rs', text'')

/-- `kpatch_fixup_rela`, `src/kpatch_strip.c:508-577`, as called by `kpatch_rel_fixup` (579-643) for one relocation
section, after both objects were loaded. -/
def fixupRela (orig patch : FixObj) (shAddr : Nat) (rs : List (Rela X86Rel)) (text : List Byte) :
    Option (List (Rela X86Rel) × List Byte) :=
  match kpatchSections orig, kpatchSections patch with
  | some _, some ours => fixupRelaGo orig patch ours shAddr rs text
  | _, _ => none

end Verif
