import Verif.Model.Hunk
import Verif.Model.Reloc
import Verif.Model.Symbols
import Verif.Model.Kpstr
/-
The patch stripper and link undoer, `src/kpatch_strip.c`.

The ELF library is not modelled: a file is the list of its sections, its symbols and its relocations,
already decoded; errors of the library's calls on well-formed files are left out.
-/
namespace Verif

/-- `need_section`, `src/kpatch_strip.c` 53-65. -/
def needSection (name : CStr) : Bool :=
  hasSub name (lit "kpatch") || name == lit ".symtab" || name == lit ".strtab" || name == lit ".shstrtab"

/-- `check_info_len`, `src/kpatch_strip.c` 85-102, on the records of the section; true: returned 1
("too small function to patch"). -/
def checkInfoLen : List Info → Bool
  | [] => false
  | i :: is =>
    if i.isNew then checkInfoLen is
    else (decide (i.dlen < 5)) || checkInfoLen is

/-- `KPATCH_INFO_LAST_SIZE`, `src/kpatch_strip.c` 104. -/
def infoLastSize : Nat := 24

/-- `ALIGN(off, sz)`, `src/kpatch_strip.c` 45, on 64-bit unsigned values. -/
def align64 (off sz : BitVec 64) : BitVec 64 := (off + sz - 1) &&& ~~~(sz - 1)

/-- One section of the input: its header as far as `kpatch_strip` uses it and its contents, with the
decoded records when it is `.kpatch.info`. `src/kpatch_strip.c:137-268` (kpatch_strip). -/
structure ScnIn where
  name : CStr
  offset : BitVec 64
  align : BitVec 64
  data : List Byte
  infos : List Info := []

/-- One section of the output: `nobits` stands for `SHT_NOBITS` (nothing in the file); `data` are the
bytes written at `offset`. `src/kpatch_strip.c:137-268` (kpatch_strip). -/
structure ScnOut where
  name : CStr
  offset : BitVec 64
  nobits : Bool
  data : List Byte
  deriving DecidableEq, Repr

/-- One round of the loop of `kpatch_strip` over the sections, `src/kpatch_strip.c` 174-236, with
`process_kpatch_info` (106-134).  `off = none` is `off == -1ull`.  `none`: refused. -/
def stripOne (off : Option (BitVec 64)) (s : ScnIn) : Option (ScnOut × Option (BitVec 64)) :=
  let o := match off with
    | some o => align64 o s.align
    | none => s.offset
  if needSection s.name then
    if s.name == lit ".kpatch.info" then
      if checkInfoLen s.infos then none
      else some (⟨s.name, o, false, s.data ++ List.replicate infoLastSize 0⟩,
        some (o + BitVec.ofNat 64 s.data.length + BitVec.ofNat 64 infoLastSize))
    else some (⟨s.name, o, false, s.data⟩, some (o + BitVec.ofNat 64 s.data.length))
  else some (⟨s.name, o, true, []⟩, some o)

/-- The loop of `kpatch_strip`, `src/kpatch_strip.c` 174-236. -/
def stripGo : Option (BitVec 64) → List ScnIn → Option (List ScnOut × Option (BitVec 64))
  | off, [] => some ([], off)
  | off, s :: ss =>
    match stripOne off s with
    | none => none
    | some (o, off1) =>
      match stripGo off1 ss with
      | none => none
      | some (os, off2) => some (o :: os, off2)

/-- `kpatch_strip`, `src/kpatch_strip.c` 136-265: the sections of the output file and `e_shoff`, the place
of the section headers. -/
def kpatchStrip (secs : List ScnIn) : Option (List ScnOut × BitVec 64) :=
  match stripGo none secs with
  | some (os, some off) => some (os, align64 off 8)
  | _ => none

/-! ### Undoing the link -/

/-- `SHT_*` as far as `kpatch_undo_link` distinguishes them. `src/kpatch_strip.c:853-932` (kpatch_undo_link). -/
inductive ShType where
  | rela | rel | other
  deriving DecidableEq, Repr

/-- One section of an object: name, `SHF_ALLOC`, `sh_addr`, type, `sh_info` and for `SHT_RELA` the
`r_offset`s of its entries. `src/kpatch_strip.c:649-850`. -/
structure LnkSec where
  name : CStr
  alloc : Bool
  addr : BitVec 64
  typ : ShType := .other
  info : Nat := 0
  offs : List (BitVec 64) := []
  deriving DecidableEq, Repr

/-- A linked object: sections (index 0 is the null section) and symbols. `src/kpatch_strip.c:853-932` (kpatch_undo_link). -/
structure LnkObj where
  secs : List LnkSec
  syms : List Sym
  deriving DecidableEq, Repr

/-- `sh_addr` of a section, 0 when there is no such section: the `memset` before
`kpatch_objinfo_getshdr`, `src/kpatch_strip.c` 657-659. -/
def LnkObj.addrOf (o : LnkObj) (i : Nat) : BitVec 64 := ((o.secs[i]?).map LnkSec.addr).getD 0

/-- `kpatch_rel_offset_to_relative`, `src/kpatch_strip.c` 648-681. -/
def relOffsetToRelative (o : LnkObj) (s : LnkSec) : LnkSec :=
  if o.addrOf s.info = 0 then s
  else { s with offs := s.offs.map (· - o.addrOf s.info) }

/-- One symbol in `kpatch_rel_symbols_to_relative`, `src/kpatch_strip.c` 696-724; `none`: the section of
the symbol does not exist. -/
def symToRelative (o : LnkObj) (s : Sym) : Option Sym :=
  if s.shndx = 0 ∨ s.shndx ≥ 0xff00 ∨ s.typ = .tls ∨ s.typ = .sect then some s
  else
    match o.secs[s.shndx]? with
    | none => none
    | some sec => if sec.addr = 0 then some s else some { s with value := s.value - sec.addr }

/-- `kpatch_rel_symbols_to_relative`, `src/kpatch_strip.c` 686-727. -/
def symsToRelative (o : LnkObj) : List Sym → Option (List Sym)
  | [] => some []
  | s :: ss =>
    match symToRelative o s with
    | none => none
    | some s' => (symsToRelative o ss).map (s' :: ·)

/-- The `do ... while` scan of the patch's sections of `map_patch_to_orig_sections`,
`src/kpatch_strip.c` 767-776, from the section number `ip` on (`ps` are the patch's sections from there).
`none`: there was no section `ip` (`goto cleanup`); `some none`: not found. -/
def scanName (name : CStr) : List LnkSec → Nat → Option (Option Nat)
  | [], _ => none
  | p :: ps, ip =>
    if p.name = name then some (some ip)
    else if ps.isEmpty then some none
    else scanName name ps (ip + 1)

/-- The loop over the original's sections, `src/kpatch_strip.c` 755-789: `os` are the original's sections
from number `io` on, `ip` the running position in the patch.  After an unmatched section the code
increments `iorig` and `continue`s, which increments it once more.  Result: `scn_mapping` as pairs
(original's number, patch's number) in the order made. -/
def mapSecs (patch : List LnkSec) : List LnkSec → Nat → Nat → Option (List (Nat × Nat))
  | [], _, _ => some []
  | o :: os, io, ip =>
    if !o.alloc then mapSecs patch os (io + 1) ip
    else
      match scanName o.name (patch.drop ip) ip with
      | none => none
      | some none => mapSecs patch (os.drop 1) (io + 2) 1
      | some (some k) => (mapSecs patch os (io + 1) (k + 1)).map ((io, k) :: ·)
  termination_by os => os.length
  decreasing_by all_goals simp_all <;> omega

/-- `map_patch_to_orig_sections`, `src/kpatch_strip.c` 729-803. -/
def mapPatchToOrig (orig patch : List LnkSec) : Option (List (Nat × Nat)) :=
  mapSecs patch (orig.drop 1) 1 1

/-- `reverse_mapping[k]`, `src/kpatch_strip.c` 791-799: a later entry overwrites an earlier one. -/
def reverseMapping (m : List (Nat × Nat)) (k : Nat) : Option Nat :=
  (m.reverse.find? fun e => e.2 == k).map Prod.fst

/-- The loop of `kpatch_rel_copy_sections_addr`, `src/kpatch_strip.c` 820-843, on the patch's sections
from number `k` on. -/
def copyAddrs (orig : List LnkSec) (m : List (Nat × Nat)) : List LnkSec → Nat → List LnkSec
  | [], _ => []
  | p :: ps, k =>
    (match (reverseMapping m k).bind (orig[·]?) with
      | some o => { p with addr := o.addr }
      | none => p) :: copyAddrs orig m ps (k + 1)

/-- `kpatch_rel_copy_sections_addr`, `src/kpatch_strip.c` 805-850; section 0 is left alone because
nothing is mapped to it. -/
def copySectionsAddr (orig patch : List LnkSec) : Option (List LnkSec) :=
  (mapPatchToOrig orig patch).map fun m => copyAddrs orig m patch 0

/-- `kpatch_undo_link`, `src/kpatch_strip.c` 852-933, where `kpatch_arch_fixup_addr_bias` does nothing
(`src/arch/x86/arch_strip.c` 238-242).  Section 0 has no relocations. -/
def undoLink (orig patch : LnkObj) : Option LnkObj :=
  if patch.secs.any (·.typ == .rel) then none
  else
    let secs := patch.secs.map fun s => if s.typ = .rela then relOffsetToRelative patch s else s
    match symsToRelative patch patch.syms with
    | none => none
    | some syms => (copySectionsAddr orig.secs secs).map fun secs' => ⟨secs', syms⟩

end Verif
