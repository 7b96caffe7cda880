import Verif.Model.PatchElf
import Verif.Model.Phdr
import Verif.Model.Process
/-
The ELF objects of the target as they lie in its memory: reading the headers, telling libraries from
programs, and reading the dynamic symbol table.  `src/kpatch_elf.c` 28-103, 178-232, 551-665 and
`object_map_elf_segments`, `src/kpatch_process.c` 292-322.

Fields beyond the end of a buffer are undefined behaviour in C and are read as 0 bytes here.  Failing
allocations are not modelled, nor is the check of the headers of kernel-made objects (`[vdso]`), which
can only make the command fail.
-/
namespace Verif

/-- What `struct object_file` holds of the headers: `ehdr` and the program headers as bytes (`none`:
`o->phdr == NULL`). `src/include/kpatch_process.h:60-147`. -/
structure ObjHdr where
  ehdr : List Byte
  phdr : Option (List Byte)
  deriving DecidableEq

/-- `ehdr.e_type`. Used at `src/kpatch_elf.c:213`. -/
def ehdrType (e : List Byte) : Nat := ldField e 16 2
/-- `ehdr.e_phoff`. Used at `src/kpatch_elf.c:55`, `src/kpatch_elf.c:91`. -/
def ehdrPhoff (e : List Byte) : Nat := ldField e 32 8
/-- `ehdr.e_phentsize`. Used at `src/kpatch_elf.c:84`. -/
def ehdrPhentsize (e : List Byte) : Nat := ldField e 54 2
/-- `ehdr.e_phnum`. Used at `src/kpatch_elf.c:48`, `src/kpatch_elf.c:85`. -/
def ehdrPhnum (e : List Byte) : Nat := ldField e 56 2

/-- `kpatch_elf_object_set_ehdr`, `src/kpatch_elf.c` 69-103, with the 1024 bytes read by
`process_add_object_vma` (`src/kpatch_process.c` 238, 278-286); `none` for -1. -/
def setEhdr (buf : List Byte) : Option ObjHdr :=
  if buf.take 4 ≠ elfMagic then none
  else
    let e := buf.take 64
    if ehdrPhentsize e ≠ 56 ∨ ehdrPhnum e = 0 then none
    else if buf.length < (ehdrPhoff e + ehdrPhentsize e * ehdrPhnum e) % 2 ^ 64 then some ⟨e, none⟩
    else some ⟨e, some ((buf.drop (ehdrPhoff e)).take (ehdrPhentsize e * ehdrPhnum e))⟩

/-- `elf_object_peek_phdr`, `src/kpatch_elf.c` 28-66: the first call for an object, whose first mapping
starts at `start`; `none` for a negative result.  Later calls leave the object as it is (33-34). -/
def peekPhdr (lim : Nat) (m : Mem) (start : Nat) (h : ObjHdr) : Option ObjHdr :=
  let e : Option (List Byte) :=
    if h.ehdr.head? ≠ some 0x7f#8 then
      match memRead lim m start 64 with
      | none => none
      | some e => if ehdrPhnum e = 0 then none else some e
    else some h.ehdr
  match e with
  | none => none
  | some e =>
    match h.phdr with
    | some p => some ⟨e, some p⟩
    | none => (memRead lim m ((start + ehdrPhoff e) % 2 ^ 64) (56 * ehdrPhnum e)).map fun p => ⟨e, some p⟩

/-- `Elf64_Phdr` as far as the code uses it. Used at `src/kpatch_elf.c:220-229`, `src/kpatch_elf.c:291-438`,
`src/kpatch_elf.c:571-590`. -/
structure ElfPhdr where
  typ : Nat
  flags : Nat
  offset : BitVec 64
  vaddr : BitVec 64
  filesz : BitVec 64
  memsz : BitVec 64
  deriving DecidableEq

/-- `o->phdr[i]`. `src/kpatch_elf.c:222`, `src/kpatch_elf.c:573`. -/
def elfPhdrAt (tab : List Byte) (i : Nat) : ElfPhdr :=
  { typ := ldField tab (56 * i) 4
    flags := ldField tab (56 * i + 4) 4
    offset := BitVec.ofNat 64 (ldField tab (56 * i + 8) 8)
    vaddr := BitVec.ofNat 64 (ldField tab (56 * i + 16) 8)
    filesz := BitVec.ofNat 64 (ldField tab (56 * i + 32) 8)
    memsz := BitVec.ofNat 64 (ldField tab (56 * i + 40) 8) }

/-- All program headers, in the order of the loops. `src/kpatch_elf.c:220`, `src/kpatch_elf.c:314`, `src/kpatch_elf.c:572`. -/
def ObjHdr.phdrs (h : ObjHdr) : List ElfPhdr :=
  (List.range (ehdrPhnum h.ehdr)).map (elfPhdrAt (h.phdr.getD []))

/-- One name of `elf_object_is_interp_exception`: `<lib>.so.` or `<lib>-...so`. `src/kpatch_elf.c:182-184`,
`src/kpatch_elf.c:187-189`, `src/kpatch_elf.c:192-194`. -/
def interpName (lib : String) (name : List Char) : Bool :=
  (lib ++ ".so.").toList.isPrefixOf name ||
    ((lib ++ "-").toList.isPrefixOf name && ".so".toList.isPrefixOf (name.drop (name.length - 3)))

/-- `elf_object_is_interp_exception`, `src/kpatch_elf.c` 178-197. -/
def interpException (name : String) : Bool :=
  interpName "libc" name.toList || interpName "libpthread" name.toList || interpName "libdl" name.toList

/-- `kpatch_elf_object_is_shared_lib`, `src/kpatch_elf.c` 199-232, after the headers have been read.  3 is
`ET_DYN` and `PT_INTERP`. -/
def isSharedLib (name : String) (h : ObjHdr) : Bool :=
  if ehdrType h.ehdr ≠ 3 then false
  else !(h.phdrs.any fun p => p.typ == 3 && !interpException name)

/-- The program headers as `kpatch_elf_parse_program_header` distinguishes them: `PT_LOAD` 1,
`PT_GNU_RELRO` 0x6474e552. `src/kpatch_elf.c:315-322`. -/
def ElfPhdr.toPhdr (p : ElfPhdr) : Phdr :=
  { typ := if p.typ = 1 then .load else if p.typ = 0x6474e552 then .relro else .other
    vaddr := p.vaddr, memsz := p.memsz, offset := p.offset, filesz := p.filesz, flags := p.flags }

/-- `struct obj_vm_area` as `object_add_vm_area` makes it. `src/kpatch_process.c:110-115`. -/
def Mapping.toOVma (v : Mapping) : OVma :=
  ⟨0#64, 0#64, BitVec.ofNat 64 v.start, BitVec.ofNat 64 v.stop, v.prot⟩

/-- The entries of `.dynamic` that matter: `DT_SYMTAB`, `DT_STRTAB`, `DT_STRSZ`. `src/kpatch_elf.c:560-563`. -/
structure DynInfo where
  symtab : Nat := 0
  strtab : Nat := 0
  strsz : Nat := 0
  deriving DecidableEq

/-- The loop over `.dynamic`, `src/kpatch_elf.c` 594-614 (`DT_STRTAB` 5, `DT_SYMTAB` 6, `DT_STRSZ` 10,
`DT_SYMENT` 11); `none` for a wrong `DT_SYMENT`. -/
def dynScan (dyn : List Byte) : List Nat → DynInfo → Option DynInfo
  | [], d => some d
  | i :: is, d =>
    let tag := ldField dyn (16 * i) 8
    let v := ldField dyn (16 * i + 8) 8
    if tag = 6 then dynScan dyn is { d with symtab := v }
    else if tag = 5 then dynScan dyn is { d with strtab := v }
    else if tag = 10 then dynScan dyn is { d with strsz := v }
    else if tag = 11 then if v ≠ 24 then none else dynScan dyn is d
    else dynScan dyn is d

/-- The `k`-th entry of the symbol table read into `buffer`, whose string table starts at `symsz`.
`src/kpatch_elf.c:640-656`, `src/kpatch_elf.c:526-549`. -/
def dynSymAt (buffer : List Byte) (symsz k : Nat) : DynSym :=
  { name := cstr (buffer.drop (symsz + ldField buffer (24 * k) 4))
    nameOff := ldField buffer (24 * k) 4
    value := BitVec.ofNat 64 (ldField buffer (24 * k + 8) 8)
    shndx := ldField buffer (24 * k + 6) 2
    typ := symTypeOf (ldField buffer (24 * k + 4) 1) }

/-- `elf_object_load_dynsym`, `src/kpatch_elf.c` 551-665, up to the sorting: the symbols in the order of the
table; `none` for -1.  `load` is `o->load_offset`. -/
def readDynsym (a : Arch) (lim : Nat) (m : Mem) (load : BitVec 64) (phdrs : List ElfPhdr) : Option (List DynSym) :=
  match phdrs.find? fun p => p.typ == 2 with
  | none => none
  | some p =>
    match memRead lim m (load + p.vaddr).toNat p.memsz.toNat with
    | none => none
    | some dyn =>
      match dynScan dyn (List.range (p.memsz.toNat / 16)) {} with
      | none => none
      | some d =>
        let symsz := (d.strtab + 2 ^ 64 - d.symtab) % 2 ^ 64
        let addr := if a = .riscv64 then (d.symtab + load.toNat) % 2 ^ 64 else d.symtab
        (memRead lim m addr ((d.strsz + symsz) % 2 ^ 64)).map fun buffer =>
          (List.range (symsz / 24)).map (dynSymAt buffer symsz)

/-- What is known of an object after `object_map_elf_segments`. `src/kpatch_process.c:292-322`. -/
structure MappedObj where
  lib : LibObj
  load : BitVec 64

/-- `is_kernel_object_name`, `src/include/kpatch_process.h` 239-247. -/
def kernelName (name : String) : Bool :=
  (name.toList.head? == some '[' && name.toList.getLast? == some ']') || "anon_inode".toList.isPrefixOf name.toList

/-- The headers of an ELF object: the bytes read by `process_add_object_vma` from its first mapping, then
`elf_object_peek_phdr`. `src/kpatch_process.c:278-286`, `src/kpatch_elf.c:28-66`. -/
def objHeaders (lim : Nat) (m : Mem) (start : Nat) : Option ObjHdr :=
  match memRead lim m start 1024 with
  | none => none
  | some buf =>
    match setEhdr buf with
    | none => none
    | some h => peekPhdr lim m start h

/-- `object_map_elf_segments`, `src/kpatch_process.c` 292-322, with the symbol table that
`elf_object_load_dynsym` will find; `none` for an error, which ends the command
(`kpatch_process_map_object_files`, 589-593).  Objects without mappings do not exist. -/
def mapObject (a : Arch) (lim : Nat) (m : Mem) (qsort : List Phdr → List Phdr) (page : BitVec 64) (o : Obj) :
    Option MappedObj :=
  if kernelName o.name || !o.isElf then
    some ⟨{ shared := false, dyn := none, vmas := o.vmas.map Mapping.toOVma }, BitVec.allOnes 64⟩
  else
    match o.vmas.head? with
    | none => none
    | some v =>
      match objHeaders lim m v.start with
      | none => none
      | some h =>
        let r := parseProgramHeader qsort page (h.phdrs.map ElfPhdr.toPhdr) (BitVec.ofNat 64 v.start)
          (BitVec.allOnes 64) (o.vmas.map Mapping.toOVma)
        if r.rv < 0 then none
        else some ⟨{ shared := isSharedLib o.name h, dyn := readDynsym a lim m r.load h.phdrs, vmas := r.vmas }, r.load⟩

/-- The loop of `kpatch_process_map_object_files`, `src/kpatch_process.c` 589-593. -/
def mapObjects (a : Arch) (lim : Nat) (m : Mem) (qsort : List Phdr → List Phdr) (page : BitVec 64) :
    List Obj → Option (List MappedObj)
  | [] => some []
  | o :: os =>
    match mapObject a lim m qsort page o with
    | none => none
    | some x => (mapObjects a lim m qsort page os).map (x :: ·)

/-- The address an undefined symbol of a patch gets, from the objects of the process: mapping the objects
(`src/kpatch_process.c` 580-601) and `kpatch_resolve_undefined` (`src/kpatch_elf.c` 701-740).  `none`: the
command fails before; `some 0`: the symbol is not resolved. -/
def resolveInTarget (a : Arch) (lim : Nat) (m : Mem) (qsortP : List Phdr → List Phdr) (page : BitVec 64)
    (qsortS : List DynSym → List DynSym) (ifunc : BitVec 64 → Option (BitVec 64)) (objs : List Obj) (name : CStr) :
    Option (BitVec 64) :=
  (mapObjects a lim m qsortP page objs).map fun os => resolveUndefined qsortS ifunc (os.map MappedObj.lib) name

end Verif
