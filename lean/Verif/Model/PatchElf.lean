import Verif.Model.Kpstr
import Verif.Model.Patch
import Verif.Model.RelocA64
import Verif.Model.RelocLoong
import Verif.Model.RelocRiscv
import Verif.Model.Symbols
/-
The patch as bytes: reading the section table, the symbols and the relocations of the patch's ELF object
and changing them in place.  `src/kpatch_elf.c` 440-446, 490-524, 816-927 and the symbol and relocation
access of `kpatch_arch_apply_relocate_add` in `src/arch/*/arch_elf.c`.

`img` are the bytes from `ehdr` on.  A read outside them is undefined behaviour in C and yields 0 bytes
here.  The code does not look at `e_shentsize`, `sh_entsize` or `e_ident`.
-/
namespace Verif

/-- A little-endian field, read through a struct pointer; for example `ehdr->e_shoff`,
`src/kpatch_elf.c:442`. -/
def ldField (img : List Byte) (off n : Nat) : Nat := leVal ((img.drop off).take n)

/-- `ehdr->e_shoff` (`Elf64_Ehdr`). Used at `src/kpatch_elf.c:442`, `src/kpatch_elf.c:827`. -/
def elfShoff (img : List Byte) : Nat := ldField img 40 8
/-- `ehdr->e_shnum`. Used at `src/kpatch_elf.c:830`, `src/kpatch_elf.c:882`. -/
def elfShnum (img : List Byte) : Nat := ldField img 60 2
/-- `ehdr->e_shstrndx`. Used at `src/kpatch_elf.c:443`. -/
def elfShstrndx (img : List Byte) : Nat := ldField img 62 2

/-- `Elf64_Shdr`, as far as the code uses it. `src/kpatch_elf.c:816-927`. -/
structure ElfShdr where
  name : Nat
  typ : Nat
  addr : BitVec 64
  offset : Nat
  size : Nat
  link : Nat
  info : Nat
  deriving DecidableEq

/-- `shdr[i]` with `shdr = (void *)ehdr + ehdr->e_shoff`. `src/kpatch_elf.c:827-831`. -/
def elfShdr (img : List Byte) (i : Nat) : ElfShdr :=
  let h := elfShoff img + 64 * i
  { name := ldField img h 4
    typ := ldField img (h + 4) 4
    addr := BitVec.ofNat 64 (ldField img (h + 16) 8)
    offset := ldField img (h + 24) 8
    size := ldField img (h + 32) 8
    link := ldField img (h + 40) 4
    info := ldField img (h + 44) 4 }

/-- `secname(ehdr, &shdr[i])`, `src/kpatch_elf.c` 440-446. -/
def elfSecName (img : List Byte) (i : Nat) : CStr :=
  cstr (img.drop ((elfShdr img (elfShstrndx img)).offset + (elfShdr img i).name))

/-- The indexes of the loops `for (i = 1; i < ehdr->e_shnum; i++)`, `src/kpatch_elf.c` 501, 830, 882, 911.
The loops read `e_shnum` again in every round; here it is read once. -/
def elfSecIdx (img : List Byte) : List Nat := List.range' 1 (elfShnum img - 1)

/-- `GELF_ST_TYPE`, `src/kpatch_elf.c` 752. -/
def symTypeOf (info : Nat) : SymType :=
  match info % 16 with
  | 0 => .notype
  | 1 => .object
  | 2 => .func
  | 3 => .sect
  | 6 => .tls
  | 10 => .ifunc
  | _ => .other

/-- `GELF_ST_BIND`, `src/kpatch_elf.c` 516 and 762. -/
def symBindOf (info : Nat) : SymBind :=
  match info / 16 with
  | 0 => .loc
  | 1 => .glob
  | _ => .other

/-- The `Elf64_Sym` at `off`. `src/kpatch_elf.c:859-862`. -/
def elfSym (img : List Byte) (off : Nat) : Sym :=
  { value := BitVec.ofNat 64 (ldField img (off + 8) 8)
    size := BitVec.ofNat 64 (ldField img (off + 16) 8)
    shndx := ldField img (off + 6) 2
    typ := symTypeOf (ldField img (off + 4) 1)
    bind := symBindOf (ldField img (off + 4) 1) }

/-- `strsym + s->st_name` as a string. `src/kpatch_elf.c:863`. -/
def elfSymName (img : List Byte) (stroff off : Nat) : CStr := cstr (img.drop (stroff + ldField img off 4))

/-- The section the symbols are taken from by `kpatch_count_undefined`, `src/kpatch_elf.c` 501-507, and by
the relocation code of RISC-V and LoongArch (`src/arch/loongarch64/arch_elf.c` 79-84): the first symbol table. -/
def firstSymtab (img : List Byte) : Option Nat := (elfSecIdx img).find? fun i => (elfShdr img i).typ == 2

/-- The section the symbols are taken from by `kpatch_resolve`, `src/kpatch_elf.c` 830-833, and by the
relocation code of x86-64 and AArch64 (`src/arch/x86/arch_elf.c` 39-42): the last symbol table. -/
def lastSymtab (img : List Byte) : Option Nat := (elfSecIdx img).reverse.find? fun i => (elfShdr img i).typ == 2

/-- Number of symbols in section `i`: `sh_size / sizeof(GElf_Sym)`. `src/kpatch_elf.c:512`, `src/kpatch_elf.c:861`. -/
def elfNumSyms (img : List Byte) (i : Nat) : Nat := (elfShdr img i).size / 24

/-- `kpatch_count_undefined`, `src/kpatch_elf.c` 490-524.  Without a symbol table the code takes section 0. -/
def elfCountUndefined (img : List Byte) : Nat :=
  let si := (firstSymtab img).getD 0
  (List.range' 1 (elfNumSyms img si - 1)).countP fun k => (elfSym img ((elfShdr img si).offset + 24 * k)).wanted

/-- `kpatch_elf_load_kpatch_info`, `src/kpatch_elf.c` 899-927: offset and number of the records in the first
section called `.kpatch.info`. -/
def elfLoadInfo (img : List Byte) : Option (Nat × Nat) :=
  ((elfSecIdx img).find? fun i => strcmp (elfSecName img i) (lit ".kpatch.info") == 0).map fun i =>
    ((elfShdr img i).offset, (elfShdr img i).size / 48)

/-- The first loop of `kpatch_resolve`, `src/kpatch_elf.c` 830-849, over the given indexes: `sh_addr` becomes
the address in the target.  8 is `SHT_NOBITS` (`kpatch_is_our_section`, 448-452). -/
def resolveShdrs (kpta : BitVec 64) (elfOffset : Nat) (load : BitVec 64) : List Nat → List Byte → List Byte
  | [], img => img
  | i :: is, img =>
    let s := elfShdr img i
    let addr := if s.typ ≠ 8 then kpta + BitVec.ofNat 64 elfOffset + BitVec.ofNat 64 s.offset
      else if s.addr ≠ 0#64 then s.addr + load
      else s.addr
    resolveShdrs kpta elfOffset load is (pokeAt img (elfShoff img + 64 * i + 16) (leBytes 8 addr.toNat))

/-- `p = strchr(sname, '@'); if (p) *p = 0;`, `src/kpatch_elf.c` 710-713, for the name at `off`. -/
def cutVersion (img : List Byte) (off : Nat) : List Byte :=
  let n := cstr (img.drop off)
  if n.contains 0x40#8 then pokeAt img (off + (unversioned n).length) [0#8] else img

/-- The second loop of `kpatch_resolve`, `src/kpatch_elf.c` 861-868, over the given indexes: the symbols
are read from and written back to the table, and the version is cut off the names that are looked up. -/
def resolveSymtab (a : Arch) (junk : Nat → BitVec 32) (resolve : CStr → BitVec 64) (base : BitVec 64)
    (symoff stroff : Nat) : List Nat → List Byte → Option JmpTable → Option (List Byte × Option JmpTable)
  | [], img, t => some (img, t)
  | k :: ks, img, t =>
    let off := symoff + 24 * k
    let s := elfSym img off
    match symbolResolve a (junk k) resolve (fun n => (elfShdr img n).addr) base ⟨elfSymName img stroff off, s⟩ t with
    | none => none
    | some (s', t') =>
      let img1 := if s.wanted && (s.typ == .func || s.typ == .object)
        then cutVersion img (stroff + ldField img off 4) else img
      let img2 := pokeAt img1 (off + 8) (leBytes 8 s'.value.toNat)
      resolveSymtab a junk resolve base symoff stroff ks (pokeAt img2 (off + 16) (leBytes 8 s'.size.toNat)) t'

/-- `kpatch_resolve`, `src/kpatch_elf.c` 816-871, with the new jump table of `object_apply_patch`
(`src/kpatch_patch.c` 363-372).  `none` for an error. -/
def resolveElf (a : Arch) (junk : Nat → BitVec 32) (resolve : CStr → BitVec 64) (kpta : BitVec 64)
    (jmpOffset elfOffset : Nat) (load : BitVec 64) (img : List Byte) : Option (List Byte × Option JmpTable) :=
  let undef := elfCountUndefined img
  let t := if undef ≠ 0 then some (newJmpTable a undef) else none
  let img1 := resolveShdrs kpta elfOffset load (elfSecIdx img) img
  match lastSymtab img1 with
  | none => none
  | some si =>
    let h := elfShdr img1 si
    resolveSymtab a junk resolve (kpta + BitVec.ofNat 64 jmpOffset) h.offset (elfShdr img1 h.link).offset
      (List.range' 1 (elfNumSyms img1 si - 1)) img1 t

/-- The `Elf64_Rela` at `off`; the type is the number `GELF_R_TYPE(r_info)`. `src/arch/x86/arch_elf.c:53-77`. -/
def elfRela (img : List Byte) (off : Nat) : Rela Nat :=
  { offset := ldField img off 8
    typ := ldField img (off + 8) 8 % 2 ^ 32
    sym := ldField img (off + 8) 8 / 2 ^ 32
    addend := BitVec.ofNat 64 (ldField img (off + 16) 8) }

/-- What the relocation code of an architecture consists of: which symbol table it takes and the `switch`
over the types.  Only on RISC-V it also looks at the relocations before the current one, the nearest first, and at their
symbols (`find_pcrel_hi_value`), and has the value of a variable (`peek`) put into the jump table (`slot`).
`src/arch/x86/arch_elf.c` 26-120, `aarch64` 172-240, `loongarch64` 65-227, `riscv64` 38-280. -/
structure RelocArch where
  last : Bool
  act : RelSec → List (Rela Nat × Sym) → Rela Nat → Sym → List Byte → Act
  slot : Rela Nat → Sym → Bool := fun _ _ => false
  peek : BitVec 64 → Option (BitVec 64) := fun _ => none

/-- The relocations before the `k`-th and their symbols, the nearest first. `src/arch/riscv64/arch_elf.c` 38-61. -/
def relasBefore (symoff reloff k : Nat) (img : List Byte) : List (Rela Nat × Sym) :=
  (List.range k).reverse.map fun j =>
    let r := elfRela img (reloff + 24 * j)
    (r, elfSym img (symoff + 24 * r.sym))

/-- The loop of `kpatch_arch_apply_relocate_add`, `src/arch/x86/arch_elf.c` 53-117 and its copies: every round
reads a relocation and its symbol from the image.  The number of relocations is read once.  For a slot
(`adjust_got_jump_table`, `src/arch/riscv64/arch_elf.c` 74-101, 146-152) the symbol is changed in the image, the value is put into the
local copy of the jump table (which has a header of 16 bytes) and the addend is not used. -/
def relaLoop (ra : RelocArch) (jbase : BitVec 64) (sec : RelSec) (symoff reloff : Nat) :
    List Nat → List Byte × Option JmpTable → (List Byte × Option JmpTable) × Bool
  | [], st => (st, true)
  | k :: ks, (img, t) =>
    let r := elfRela img (reloff + 24 * k)
    let so := symoff + 24 * r.sym
    let s := elfSym img so
    if r.offset ≥ sec.size then ((img, t), false)
    else if ra.slot r s then
      match ra.peek s.size with
      | none => ((img, t), false)
      | some v =>
        let val := s.value + 16#64
        let img := pokeAt img (so + 8) (le64 val)
        let t := t.map fun t => { t with entries := pokeAt t.entries ((val - jbase).toNat - 16) (le64 v) }
        match ra.act sec (relasBefore symoff reloff k img) { r with addend := 0 } { s with value := val }
            (img.drop (sec.fileOff + r.offset)) with
        | .fail => ((img, t), false)
        | .stop => ((img, t), true)
        | .write bs => relaLoop ra jbase sec symoff reloff ks (pokeAt img (sec.fileOff + r.offset) bs, t)
    else
      match ra.act sec (relasBefore symoff reloff k img) r s (img.drop (sec.fileOff + r.offset)) with
      | .fail => ((img, t), false)
      | .stop => ((img, t), true)
      | .write bs => relaLoop ra jbase sec symoff reloff ks (pokeAt img (sec.fileOff + r.offset) bs, t)

/-- The beginning of `kpatch_arch_apply_relocate_add`, `src/arch/x86/arch_elf.c` 26-52 and its copies, and the
loop.  `i` is the number of the relocation section. -/
def applyRelocateAdd (ra : RelocArch) (jbase : BitVec 64) (i : Nat) (st : List Byte × Option JmpTable) :
    (List Byte × Option JmpTable) × Bool :=
  let img := st.1
  let rel := elfShdr img i
  let t := elfShdr img rel.info
  match if ra.last then lastSymtab img else firstSymtab img with
  | none => (st, false)
  | some si =>
    let sec : RelSec := { fileOff := t.offset, size := t.size, addr := t.addr
                          isInfo := strcmp (elfSecName img rel.info) (lit ".kpatch.info") == 0 }
    relaLoop ra jbase sec (elfShdr img si).offset rel.offset (List.range (rel.size / 24)) st

/-- `kpatch_relocate`, `src/kpatch_elf.c` 873-897, over the given indexes.  4 is `SHT_RELA`, 9 `SHT_REL`; as in
the code the second test looks at section 0. -/
def relocateElf (ra : RelocArch) (jbase : BitVec 64) : List Nat → List Byte × Option JmpTable → (List Byte × Option JmpTable) × Bool
  | [], st => (st, true)
  | i :: is, st =>
    if (elfShdr st.1 i).typ = 4 then
      let r := applyRelocateAdd ra jbase i st
      if !r.2 then (r.1, false) else relocateElf ra jbase is r.1
    else if (elfShdr st.1 0).typ = 9 then (st, false)
    else relocateElf ra jbase is st

/-- The numbers of the `R_X86_64_*` types (`<elf.h>`). `src/arch/x86/arch_elf.c:78-110`. -/
def x86RelOf (n : Nat) : X86Rel :=
  match n with
  | 0 => .none
  | 1 => .r64
  | 2 => .pc32
  | 9 => .gotpcrel
  | 10 => .r32
  | 11 => .r32s
  | 18 => .tpoff64
  | 22 => .gottpoff
  | 23 => .tpoff32
  | 41 => .gotpcrelx
  | 42 => .rexGotpcrelx
  | n => .other n

/-- The numbers of the `R_AARCH64_*` types (`<elf.h>`). `src/arch/aarch64/arch_elf.c:47-157`. -/
def a64RelOf (n : Nat) : A64Rel :=
  match n with
  | 0 => .none
  | 257 => .abs64
  | 275 => .adrPrelPgHi21
  | 277 => .addAbsLo12
  | 278 => .ldst8Lo12
  | 282 => .jump26
  | 283 => .call26
  | 285 => .ldst32Lo12
  | 286 => .ldst64Lo12
  | 311 => .adrGotPage
  | 312 => .ld64GotLo12
  | 541 => .tlsieAdrPage21
  | 542 => .tlsieLd64Lo12
  | n => .other n

/-- The numbers of the `R_LARCH_*` types (`<elf.h>`; `R_LARCH_TLS_LD_PCREL20_S2` and
`R_LARCH_TLS_GD_PCREL20_S2` are 124 and 125). `src/arch/loongarch64/arch_elf.c:37-218`. -/
def loongRelOf (n : Nat) : LoongRel :=
  match n with
  | 0 => .none
  | 1 => .r32
  | 2 => .r64
  | 5 => .jumpSlot
  | 50 => .add32
  | 51 => .add64
  | 55 => .sub32
  | 56 => .sub64
  | 64 => .b16
  | 65 => .b21
  | 66 => .b26
  | 67 => .absHi20
  | 68 => .absLo12
  | 71 => .pcalaHi20
  | 72 => .pcalaLo12
  | 75 => .gotPcHi20
  | 76 => .gotPcLo12
  | 79 => .gotHi20
  | 80 => .gotLo12
  | 87 => .tlsIePcHi20
  | 88 => .tlsIePcLo12
  | 91 => .tlsIeHi20
  | 92 => .tlsIeLo12
  | 95 | 96 | 97 | 98 | 124 | 125 => .tlsOther
  | 100 => .relax
  | 103 => .pcrel20
  | n => .other n

/-- A relocation with its type decoded. Used for the `switch` of `src/arch/x86/arch_elf.c:78-110`. -/
def Rela.decode {T : Type} (f : Nat → T) (r : Rela Nat) : Rela T :=
  { offset := r.offset, typ := f r.typ, sym := r.sym, addend := r.addend }

/-- x86-64: `src/arch/x86/arch_elf.c` 26-120. -/
def x86RelocArch (load : BitVec 64) : RelocArch :=
  { last := true, act := fun sec _ r s d => x86Act load sec (r.decode x86RelOf) s d }
/-- AArch64: `src/arch/aarch64/arch_elf.c` 172-240. -/
def a64RelocArch (load : BitVec 64) : RelocArch :=
  { last := true, act := fun sec _ r s d => a64Act load sec (r.decode a64RelOf) s d }
/-- LoongArch: `src/arch/loongarch64/arch_elf.c` 65-227. -/
def loongRelocArch (load : BitVec 64) : RelocArch :=
  { last := false, act := fun sec _ r s d => loongAct load sec (r.decode loongRelOf) s d }

/-- The numbers of the `R_RISCV_*` types (`<elf.h>`). `src/arch/riscv64/arch_elf.c:159-264`. -/
def rvRelOf (n : Nat) : RvRel :=
  match n with
  | 0 | 16 | 29 | 30 | 31 | 32 | 35 | 36 | 39 | 40 | 44 | 47 | 48 | 49 | 50 | 51 => .ignored
  | 1 => .r32
  | 2 => .r64
  | 17 => .jal
  | 18 => .call
  | 19 => .callPlt
  | 21 => .tlsGotHi20
  | 23 => .pcrelHi20
  | 24 => .pcrelLo12I
  | 25 => .pcrelLo12S
  | 26 => .hi20
  | 27 => .lo12I
  | 28 => .lo12S
  | 45 => .rvcJump
  | 46 => .rvcLui
  | 56 => .set32
  | 57 => .r32Pcrel
  | n => .other n

/-- The `switch` and `find_pcrel_hi_value` of `src/arch/riscv64/arch_elf.c` 38-61, 158-276: the relocations before are given with
their symbols, so the table `rvApply` looks them up in is the list of these symbols. -/
def rvActElf (load : BitVec 64) (sec : RelSec) (before : List (Rela Nat × Sym)) (r : Rela Nat) (s : Sym) (d : List Byte) : Act :=
  rvApply load sec (before.map (·.2)) (before.mapIdx fun j x => { x.1.decode rvRelOf with sym := j })
    (r.decode rvRelOf) s (s.value + r.addend) d

/-- The test of `adjust_got_jump_table`, `src/arch/riscv64/arch_elf.c` 80-84. -/
def rvSlotElf (r : Rela Nat) (s : Sym) : Bool :=
  s.isUndef && s.typ == .object && (rvRelOf r.typ == .hi20 || rvRelOf r.typ == .tlsGotHi20 || rvRelOf r.typ == .rvcLui)

/-- RISC-V: `src/arch/riscv64/arch_elf.c` 38-280.  `peek` is `PTRACE_PEEKTEXT` in the target. -/
def rvRelocArch (peek : BitVec 64 → Option (BitVec 64)) (load : BitVec 64) : RelocArch :=
  { last := false, act := rvActElf load, slot := rvSlotElf, peek := peek }

/-- What preparing the image needs besides the image: `o->load_offset`, the lookup of a library symbol
(`resolveUndefined`), and uninitialised words of the jump table. `src/kpatch_patch.c:363-407`. -/
structure PrepEnv where
  load : BitVec 64
  resolve : CStr → BitVec 64
  junk : Nat → BitVec 32

/-- `kpatch_resolve` and `kpatch_relocate` as called by `object_apply_patch`, `src/kpatch_patch.c` 402-407:
the image that is written to the target and the jump table. -/
def prepareElf (a : Arch) (ra : RelocArch) (pe : PrepEnv) (kpta : BitVec 64) (jmpOffset elfOffset : Nat)
    (img : List Byte) : Option (List Byte × Option JmpTable) :=
  match resolveElf a pe.junk pe.resolve kpta jmpOffset elfOffset pe.load img with
  | none => none
  | some (img2, t) =>
    let r := relocateElf ra (kpta + BitVec.ofNat 64 jmpOffset) (elfSecIdx img2) (img2, t)
    if r.2 then some r.1 else none

/-- The section table of a patch file as `object_apply_patch` sees it, `src/kpatch_patch.c` 357-366. -/
def fileView (file : List Byte) : Option ElfView :=
  let img := file.drop (leVal ((file.drop offKpatchOffset).take 4))
  (elfLoadInfo img).map fun p => { infoOff := p.1, ninfo := p.2, undef := elfCountUndefined img }

/-- The parts of `object_apply_patch`, `src/kpatch_patch.c` 357-407, that `objectApply` takes as given,
computed from the patch file: the section table, the relocated image and the jump table. -/
def applyFileEnv (a : Arch) (ra : RelocArch) (pe : PrepEnv) (e : ApplyEnv) (file : List Byte) : ApplyEnv :=
  let img := file.drop (leVal ((file.drop offKpatchOffset).take 4))
  let view := fileView file
  let prep := match view, e.region with
    | some v, some kpta =>
      let l := layout a e.page v.undef (totalSizeOf (file.take hdrSize)) v.infoOff v.ninfo
      prepareElf a ra pe (BitVec.ofNat 64 kpta) (l.jmpOffset.getD 0) l.elfOffset img
    | _, _ => none
  { e with view := view, image := prep.map (·.1), jmpTable := ((prep.bind (·.2)).map (·.bytes a)).getD [] }

/-- `object_apply_patch`, `src/kpatch_patch.c` 331-464, from the bytes of the patch file. -/
def objectApplyFile (a : Arch) (ra : RelocArch) (pe : PrepEnv) (e : ApplyEnv) (appliedIds : List (List Byte))
    (file : List Byte) (m : Mem) : Mem × LocalObj × Bool :=
  objectApply a (applyFileEnv a ra pe e file) appliedIds file m

end Verif
