import Verif.Model.Reloc
import Verif.Model.Layout
/-
Symbols of the patch and of the shared libraries of the target: `src/kpatch_elf.c` 454-871 and
`kpatch_arch_add_jmp_entry` of the four architectures.

Names are C strings without their terminating 0.  Addresses are 64-bit.
-/
namespace Verif

/-- A C string, as the bytes before the terminating 0. Used for the names of `src/kpatch_elf.c:677-813`. -/
abbrev CStr := List Byte

/-- `strcmp` of the C library (sign of the first difference, bytes as `unsigned char`). Used at `src/kpatch_elf.c:527-549`, `src/kpatch_elf.c:669-674`. -/
def strcmp : CStr → CStr → Int
  | [], [] => 0
  | [], b :: _ => - (b.toNat : Int)
  | a :: _, [] => a.toNat
  | a :: as, b :: bs => if a = b then strcmp as bs else (a.toNat : Int) - b.toNat

/-- `struct obj_vm_area` after `kpatch_elf_parse_program_header`: the link-time range and the address of
its start in the target. `src/include/kpatch_process.h:48-53`. -/
structure OVma where
  inelfStart : BitVec 64
  inelfEnd : BitVec 64
  inmemStart : BitVec 64
  inmemEnd : BitVec 64
  /-- `inmem.prot`: read 1, write 2, execute 4 (`PROT_*`) -/
  prot : Nat := 0
  deriving DecidableEq, Repr

/-- `vaddr2addr`, `src/kpatch_elf.c` 454-466. -/
def vaddr2addr (vmas : List OVma) (vaddr : BitVec 64) : BitVec 64 :=
  if vaddr = 0#64 then 0#64
  else match vmas.find? fun o => decide (o.inelfStart ≤ vaddr) && decide (vaddr < o.inelfEnd) with
    | some o => vaddr - o.inelfStart + o.inmemStart
    | none => 0#64

/-- An entry of a dynamic symbol table: `Elf64_Sym` with its name (`nameOff` is `st_name`, the offset of
the name in the string table). Used at `src/kpatch_elf.c:552-666`. -/
structure DynSym where
  name : CStr
  nameOff : Nat := 0
  value : BitVec 64
  shndx : Nat
  typ : SymType
  deriving DecidableEq, Repr

/-- `is_undef_symbol`, `src/kpatch_elf.c` 485-488. -/
def DynSym.isUndef (s : DynSym) : Bool := s.shndx == 0 || decide (s.shndx ≥ 0xff00)

/-- `sym_name_cmp`, `src/kpatch_elf.c` 526-549 (the difference of two offsets is exact: string tables
are smaller than 2 GiB). -/
def symNameCmp (a b : DynSym) : Int :=
  let t : Int := if a.isUndef then 1 else 0
  let rv := t - (if b.isUndef then 1 else 0)
  if rv ≠ 0 then rv
  else if t ≠ 0 then (a.nameOff : Int) - b.nameOff
  else strcmp a.name b.name

/-- The tables `o->dynsyms`/`o->dynsymnames` left by `elf_object_load_dynsym`, `src/kpatch_elf.c`
551-665: sorted, cut at the first undefined symbol.  `qsort` is the C library's sort. `src/kpatch_elf.c:552-666`. -/
def loadDynsym (qsort : List DynSym → List DynSym) (table : List DynSym) : List DynSym :=
  (qsort table).takeWhile fun s => !s.isUndef

/-- `bsearch` of the C library with `bsearch_strcmp` (`src/kpatch_elf.c` 667-675) over the names:
half-open interval `[l, u)`, middle element, left or right half. -/
def bsearchName (names : List CStr) (key : CStr) (l u : Nat) : Option Nat :=
  if h : l < u then
    let idx := (l + u) / 2
    let c := strcmp key (names.getD idx [])
    if c < 0 then bsearchName names key l idx
    else if c > 0 then bsearchName names key (idx + 1) u
    else some idx
  else none
termination_by u - l

/-- `kpatch_resolve_undefined_single_dynamic`, `src/kpatch_elf.c` 677-699: type and link-time address
of the symbol found, `none` for -1. -/
def resolveSingle (tab : List DynSym) (sname : CStr) : Option (SymType × BitVec 64) :=
  match bsearchName (tab.map DynSym.name) sname 0 tab.length with
  | none => none
  | some n => (tab[n]?).map fun s => (s.typ, s.value)

/-- What resolution needs of `struct object_file`: `is_shared_lib`, the dynamic symbol table (`none`
when it cannot be read from the target) and the mappings. `src/include/kpatch_process.h:60-147`. -/
structure LibObj where
  shared : Bool
  dyn : Option (List DynSym)
  vmas : List OVma

/-- `kpatch_resolve_undefined_single_dynamic` including the loading of the table. `src/kpatch_elf.c:677-699`. -/
def LibObj.lookup (qsort : List DynSym → List DynSym) (o : LibObj) (sname : CStr) :
    Option (SymType × BitVec 64) :=
  match o.dyn with
  | none => none
  | some t => resolveSingle (loadDynsym qsort t) sname

/-- `strchr(sname, '@')` and the cut, `src/kpatch_elf.c` 710-713 (the cut is made in the string table of
the patch, which no other symbol's name is affected by). -/
def unversioned (sname : CStr) : CStr := sname.takeWhile (· ≠ 0x40#8)

/-- The loop of `kpatch_resolve_undefined`, `src/kpatch_elf.c` 719-737.  `ifunc` calls the resolver
function in the target (`kpatch_arch_ptrace_resolve_ifunc`); `none` when that fails. -/
def resolveLoop (qsort : List DynSym → List DynSym) (ifunc : BitVec 64 → Option (BitVec 64)) (sname : CStr) :
    List LibObj → BitVec 64
  | [] => 0#64
  | o :: os =>
    if !o.shared then resolveLoop qsort ifunc sname os
    else match o.lookup qsort sname with
      | none => resolveLoop qsort ifunc sname os
      | some (t, v) =>
        if t = .ifunc then (ifunc (vaddr2addr o.vmas v)).getD 0#64
        else vaddr2addr o.vmas v

/-- `kpatch_resolve_undefined`, `src/kpatch_elf.c` 701-740; 0 for failure. -/
def resolveUndefined (qsort : List DynSym → List DynSym) (ifunc : BitVec 64 → Option (BitVec 64))
    (objs : List LibObj) (sname : CStr) : BitVec 64 :=
  resolveLoop qsort ifunc (unversioned sname) objs

/-! ### Jump table -/

/-- `struct kpatch_jmp_table`, `src/include/kpatch_elf.h` 45-51: `cur_entry`, `max_entry` and the bytes of
the entries. -/
structure JmpTable where
  cur : Nat
  max : Nat
  entries : List Byte
  deriving DecidableEq

/-- `kpatch_new_jmp_table`, `src/kpatch_elf.c` 468-483. -/
def newJmpTable (a : Arch) (n : Nat) : JmpTable :=
  { cur := 0, max := n, entries := List.replicate (n * a.jmpEntrySize) 0#8 }

/-- The memory image of the table: `size`, `cur_entry`, `max_entry`, 4 bytes of padding, the entries. `src/include/kpatch_elf.h:34-51`. -/
def JmpTable.bytes (a : Arch) (t : JmpTable) : List Byte :=
  le32 (BitVec.ofNat 32 (jmpTableSize a t.max)) ++ le32 (BitVec.ofNat 32 t.cur) ++ le32 (BitVec.ofNat 32 t.max) ++
    le32 0#32 ++ t.entries

/-- The entry built by `kpatch_arch_add_jmp_entry`: x86 `arch_elf.c` 123-126, aarch64 243-246,
loongarch64 230-242, riscv64 283-295.  `junk` is the uninitialised fourth word on the last two. -/
def jmpEntry (a : Arch) (junk : BitVec 32) (addr : BitVec 64) : List Byte :=
  match a with
  | .x86 => le64 0x90900000000225ff#64 ++ le64 addr
  | .aarch64 => le64 0xd61f022058000051#64 ++ le64 addr
  | .loongarch64 => le32 0x1c00000f#32 ++ le32 0x28c041ef#32 ++ le32 0x4c0001ed#32 ++ le32 junk ++ le64 addr
  | .riscv64 => le32 0x00000f97#32 ++ le32 0x010fbf83#32 ++ le32 0x000f8067#32 ++ le32 junk ++ le64 addr

/-- `kpatch_arch_add_jmp_entry`: x86 `arch_elf.c` 124-140, aarch64 244-260, loongarch64 234-255, riscv64
287-308.  `base` is `kpta + jmp_offset`.  `none` for the error return 0 (no table, or table full). -/
def addJmpEntry (a : Arch) (junk : BitVec 32) (base : BitVec 64) (t : Option JmpTable) (addr : BitVec 64) :
    Option (BitVec 64 × JmpTable) :=
  match t with
  | none => none
  | some t =>
    if t.cur ≥ t.max then none
    else some (base + BitVec.ofNat 64 (16 + t.cur * a.jmpEntrySize),
      { t with cur := t.cur + 1, entries := pokeAt t.entries (t.cur * a.jmpEntrySize) (jmpEntry a junk addr) })

/-! ### Resolution of the patch's symbols -/

/-- A symbol of the patch with its name. Used at `src/kpatch_elf.c:743-813`. -/
structure PSym where
  name : CStr
  sym : Sym
  deriving DecidableEq

/-- The test of `kpatch_count_undefined` and `symbol_resolve`: `SHN_UNDEF` and `STB_GLOBAL`. `src/kpatch_elf.c:515-516`, `src/kpatch_elf.c:761-762`. -/
def Sym.wanted (s : Sym) : Bool := s.shndx == 0 && s.bind == .glob

/-- `kpatch_count_undefined`, `src/kpatch_elf.c` 490-524 (symbol 0 is skipped). -/
def countUndefined (syms : List PSym) : Nat := (syms.drop 1).countP fun s => s.sym.wanted

/-- `symbol_resolve`, `src/kpatch_elf.c` 742-814.  `secAddr` are the `sh_addr` of the sections (an index
outside the table reads other memory in C).  An entry address of 0 counts as failure. -/
def symbolResolve (a : Arch) (junk : BitVec 32) (resolve : CStr → BitVec 64) (secAddr : Nat → BitVec 64)
    (base : BitVec 64) (s : PSym) (t : Option JmpTable) : Option (Sym × Option JmpTable) :=
  match s.sym.typ with
  | .sect => some ({ s.sym with value := secAddr s.sym.shndx }, t)
  | .func | .object =>
    if s.sym.wanted then
      let uaddr := resolve s.name
      if uaddr = 0#64 then none
      else match addJmpEntry a junk base t uaddr with
        | none => none
        | some (v, t') =>
          if v = 0#64 then none else some ({ s.sym with size := uaddr, value := v }, some t')
    else some ({ s.sym with value := s.sym.value + secAddr s.sym.shndx }, t)
  | .tls => some (s.sym, t)
  | .notype => some ({ s.sym with value := s.sym.value + secAddr s.sym.shndx }, t)
  | .ifunc | .other => none

/-- The second loop of `kpatch_resolve`, `src/kpatch_elf.c` 858-868. -/
def resolveSyms (a : Arch) (junk : Nat → BitVec 32) (resolve : CStr → BitVec 64) (secAddr : Nat → BitVec 64)
    (base : BitVec 64) : Nat → List PSym → Option JmpTable → Option (List Sym × Option JmpTable)
  | _, [], t => some ([], t)
  | i, s :: ss, t =>
    match symbolResolve a (junk i) resolve secAddr base s t with
    | none => none
    | some (s', t') =>
      match resolveSyms a junk resolve secAddr base (i + 1) ss t' with
      | none => none
      | some (ss', t'') => some (s' :: ss', t'')

/-- A section header of the patch, as far as `kpatch_resolve` uses it. Used at `src/kpatch_elf.c:816-870`. -/
structure PSec where
  nobits : Bool
  addr : BitVec 64
  offset : Nat
  deriving DecidableEq

/-- The first loop of `kpatch_resolve`, `src/kpatch_elf.c` 829-849. -/
def resolveSection (kpta : BitVec 64) (elfOffset : Nat) (load : BitVec 64) (s : PSec) : BitVec 64 :=
  if !s.nobits then kpta + BitVec.ofNat 64 elfOffset + BitVec.ofNat 64 s.offset
  else if s.addr ≠ 0#64 then s.addr + load
  else s.addr

/-- `kpatch_resolve` together with the creation of the jump table in `object_apply_patch`
(`src/kpatch_patch.c` 366-372).  Section 0 and symbol 0 are left alone.  `none` on error. -/
def kpatchResolve (a : Arch) (junk : Nat → BitVec 32) (resolve : CStr → BitVec 64) (kpta : BitVec 64)
    (jmpOffset elfOffset : Nat) (load : BitVec 64) (secs : List PSec) (syms : List PSym) :
    Option (List Sym × Option JmpTable) :=
  let undef := countUndefined syms
  let t := if undef ≠ 0 then some (newJmpTable a undef) else none
  let secAddr := fun i => if i = 0 then (secs[0]?.map PSec.addr).getD 0#64
    else (secs[i]?.map (resolveSection kpta elfOffset load)).getD 0#64
  match syms with
  | [] => some ([], t)
  | s0 :: ss =>
    match resolveSyms a junk resolve secAddr (kpta + BitVec.ofNat 64 jmpOffset) 1 ss t with
    | none => none
    | some (ss', t') => some (s0.sym :: ss', t')

end Verif
