import Verif.Model.PatchElf
import Verif.Spec.Memory
/-
Specification: what an ELF relocatable object is as bytes (System V gABI, 64-bit, little-endian) and what
the parts of a patch are at run time.  Nothing here refers to how the tool reads the file.
-/
namespace Verif

/-- The `n`-byte little-endian number at `off` is `v`. -/
def FieldAt (img : List Byte) (off n v : Nat) : Prop :=
  v < 256 ^ n ∧ ∀ j, j < n → img[off + j]? = some (BitVec.ofNat 8 (v / 256 ^ j))

/-- The NUL-terminated string at `off` is `s`. -/
def StrAt (img : List Byte) (off : Nat) (s : CStr) : Prop :=
  0#8 ∉ s ∧ (∀ j (h : j < s.length), img[off + j]? = some s[j]) ∧ img[off + s.length]? = some 0#8

/-- `Elf64_Shdr` at `off`: name, type, flags, address, offset, size, link, info (then alignment and entry size). -/
structure ShdrAt (img : List Byte) (off : Nat) (s : ElfShdr) : Prop where
  name : FieldAt img off 4 s.name
  typ : FieldAt img (off + 4) 4 s.typ
  addr : FieldAt img (off + 16) 8 s.addr.toNat
  offset : FieldAt img (off + 24) 8 s.offset
  size : FieldAt img (off + 32) 8 s.size
  link : FieldAt img (off + 40) 4 s.link
  info : FieldAt img (off + 44) 4 s.info

/-- Symbol types: `STT_NOTYPE`, `STT_OBJECT`, `STT_FUNC`, `STT_SECTION`, `STT_TLS`, `STT_GNU_IFUNC`. -/
def SymType.hasCode (t : SymType) (c : Nat) : Prop :=
  match t with
  | .notype => c = 0
  | .object => c = 1
  | .func => c = 2
  | .sect => c = 3
  | .tls => c = 6
  | .ifunc => c = 10
  | .other => c < 16 ∧ c ∉ [0, 1, 2, 3, 6, 10]

/-- Symbol bindings: `STB_LOCAL`, `STB_GLOBAL`. -/
def SymBind.hasCode (b : SymBind) (c : Nat) : Prop :=
  match b with
  | .loc => c = 0
  | .glob => c = 1
  | .other => c < 16 ∧ 2 ≤ c

/-- `Elf64_Sym` at `off`: name, info (binding and type), other, section, value, size. -/
structure ElfSymAt (img : List Byte) (off : Nat) (nameOff : Nat) (s : Sym) : Prop where
  name : FieldAt img off 4 nameOff
  info : ∃ b t, s.bind.hasCode b ∧ s.typ.hasCode t ∧ FieldAt img (off + 4) 1 (16 * b + t)
  shndx : FieldAt img (off + 6) 2 s.shndx
  value : FieldAt img (off + 8) 8 s.value.toNat
  size : FieldAt img (off + 16) 8 s.size.toNat

/-- `Elf64_Rela` at `off`: place, symbol and type, addend. -/
structure RelaAt (img : List Byte) (off : Nat) (r : Rela Nat) : Prop where
  typ32 : r.typ < 2 ^ 32
  offset : FieldAt img off 8 r.offset
  info : FieldAt img (off + 8) 8 (2 ^ 32 * r.sym + r.typ)
  addend : FieldAt img (off + 16) 8 r.addend.toNat

/-- A relocatable object: its sections (number 0 is the unused one), its symbols and their names, and the
relocations of each relocation section. -/
structure ElfObj where
  shoff : Nat
  secs : List ElfShdr
  /-- number of the section with the names of the sections -/
  strndx : Nat
  secName : Nat → CStr
  /-- number of the symbol table -/
  symtab : Nat
  /-- symbols, with the offset of the name in the string table -/
  syms : List (Nat × PSym)
  rels : Nat → List (Rela Nat)

/-- Section `i` of an object. -/
def ElfObj.sec (o : ElfObj) (i : Nat) : ElfShdr := o.secs.getD i ⟨0, 0, 0, 0, 0, 0, 0⟩

/-- Section `i` holds relocations (`SHT_RELA`). -/
def ElfObj.isRela (o : ElfObj) (i : Nat) : Prop := 1 ≤ i ∧ i < o.secs.length ∧ (o.sec i).typ = 4

/-- The bytes `img` are the object `o`. -/
structure ElfObj.Encoded (o : ElfObj) (img : List Byte) : Prop where
  shoff : FieldAt img 40 8 o.shoff
  shnum : FieldAt img 60 2 o.secs.length
  strndx : FieldAt img 62 2 o.strndx
  secs : ∀ i, i < o.secs.length → ShdrAt img (o.shoff + 64 * i) (o.sec i)
  secNames : ∀ i, 1 ≤ i → i < o.secs.length → StrAt img ((o.sec o.strndx).offset + (o.sec i).name) (o.secName i)
  numSyms : (o.sec o.symtab).size = 24 * o.syms.length
  syms : ∀ (k : Nat) (s : Nat × PSym), o.syms[k]? = some s → ElfSymAt img ((o.sec o.symtab).offset + 24 * k) s.1 s.2.sym
  symNames : ∀ (k : Nat) (s : Nat × PSym), o.syms[k]? = some s → StrAt img ((o.sec (o.sec o.symtab).link).offset + s.1) s.2.name
  numRels : ∀ i, o.isRela i → (o.sec i).size = 24 * (o.rels i).length
  rels : ∀ i, o.isRela i → ∀ k r, (o.rels i)[k]? = some r → RelaAt img ((o.sec i).offset + 24 * k) r
  strEnd : ∀ i, i = o.strndx ∨ i = (o.sec o.symtab).link → img[(o.sec i).offset + (o.sec i).size - 1]? = some 0#8

/-- Section `i` occupies bytes of the file (everything but `SHT_NOBITS`). -/
def ElfObj.inFile (o : ElfObj) (i : Nat) : Prop := 1 ≤ i ∧ i < o.secs.length ∧ (o.sec i).typ ≠ 8

/-- The shape assemblers and linkers give to relocatable objects, in a file of `n` bytes: one symbol table
with a string table of its own, sections that do not overlap each other or the headers, indexes and names in
range, relocations inside the section they belong to that do not overlap (`w` is the size of the field of
a relocation). -/
structure ElfObj.WellFormed (o : ElfObj) (w : Rela Nat → Nat) (n : Nat) : Prop where
  headers : 64 ≤ o.shoff ∧ o.shoff + 64 * o.secs.length ≤ n
  nullSym : 0 < o.syms.length
  symtab : 1 ≤ o.symtab ∧ o.symtab < o.secs.length ∧ ∀ i, 1 ≤ i → i < o.secs.length → ((o.sec i).typ = 2 ↔ i = o.symtab)
  strtab : 1 ≤ (o.sec o.symtab).link ∧ (o.sec o.symtab).link < o.secs.length ∧ (o.sec (o.sec o.symtab).link).typ = 3 ∧
    0 < (o.sec (o.sec o.symtab).link).size
  shstrtab : 1 ≤ o.strndx ∧ o.strndx < o.secs.length ∧ (o.sec o.strndx).typ = 3 ∧ 0 < (o.sec o.strndx).size ∧
    o.strndx ≠ (o.sec o.symtab).link
  fits : ∀ i, o.inFile i → 64 ≤ (o.sec i).offset ∧ (o.sec i).offset + (o.sec i).size ≤ n ∧
    ((o.sec i).offset + (o.sec i).size ≤ o.shoff ∨ o.shoff + 64 * o.secs.length ≤ (o.sec i).offset)
  apart : ∀ i j, o.inFile i → o.inFile j → i ≠ j →
    (o.sec i).offset + (o.sec i).size ≤ (o.sec j).offset ∨ (o.sec j).offset + (o.sec j).size ≤ (o.sec i).offset
  secNames : ∀ i, 1 ≤ i → i < o.secs.length → (o.sec i).name < (o.sec o.strndx).size
  symNames : ∀ (k : Nat) (s : Nat × PSym), o.syms[k]? = some s → s.1 < (o.sec (o.sec o.symtab).link).size
  symSecs : ∀ (k : Nat) (s : Nat × PSym), o.syms[k]? = some s → s.2.sym.shndx < o.secs.length
  target : ∀ i, o.isRela i → 1 ≤ (o.sec i).info ∧ (o.sec i).info < o.secs.length ∧ (o.sec (o.sec i).info).typ ∉ [2, 3, 4, 8]
  targets : ∀ i j, o.isRela i → o.isRela j → i ≠ j → (o.sec i).info ≠ (o.sec j).info
  relSyms : ∀ i, o.isRela i → ∀ r ∈ o.rels i, r.sym < o.syms.length
  relFits : ∀ i, o.isRela i → ∀ r ∈ o.rels i, r.offset + w r ≤ (o.sec (o.sec i).info).size
  relApart : ∀ i, o.isRela i → (o.rels i).Pairwise fun a b => a.offset + w a ≤ b.offset ∨ b.offset + w b ≤ a.offset

/-- Where section `i` is at run time when the file is copied to `base`: sections without bytes in the file
stand for sections of the patched program (link-time address, moved by `load`). -/
def ElfObj.runAddr (o : ElfObj) (base load : BitVec 64) (i : Nat) : BitVec 64 :=
  if i = 0 then (o.sec 0).addr
  else if (o.sec i).typ = 8 then (if (o.sec i).addr = 0#64 then 0#64 else (o.sec i).addr + load)
  else base + BitVec.ofNat 64 (o.sec i).offset

/-- The symbol names a function or variable of a shared library. -/
def Sym.isLib (s : Sym) : Prop := (s.typ = .func ∨ s.typ = .object) ∧ s.shndx = 0 ∧ s.bind = .glob

/-- `s'` is what the symbol `s` stands for at run time: for a section its address, for a definition its
offset in the section plus the address of the section, unchanged for a thread-local variable.  Library
symbols are described separately. -/
def Sym.RunsAt (secAddr : Nat → BitVec 64) (s s' : Sym) : Prop :=
  s'.shndx = s.shndx ∧ s'.typ = s.typ ∧ s'.bind = s.bind ∧
  match s.typ with
  | .sect => s'.value = secAddr s.shndx
  | .tls => s'.value = s.value
  | _ => ¬ s.isLib → s'.value = s.value + secAddr s.shndx

/-- Byte `k` of the file belongs to section `i`. -/
def ElfObj.InSection (o : ElfObj) (i k : Nat) : Prop :=
  o.inFile i ∧ (o.sec i).offset ≤ k ∧ k < (o.sec i).offset + (o.sec i).size

/-- The place of a relocation of section `i` in the file. -/
def ElfObj.place (o : ElfObj) (i : Nat) (r : Rela Nat) : Nat := (o.sec (o.sec i).info).offset + r.offset

/-- Byte `k` belongs to a field that is relocated. -/
def ElfObj.Relocated (o : ElfObj) (w : Rela Nat → Nat) (k : Nat) : Prop :=
  ∃ i, o.isRela i ∧ ∃ r ∈ o.rels i, o.place i r ≤ k ∧ k < o.place i r + w r

/-- Section `n` is the first one called `.kpatch.info`. -/
def ElfObj.infoSec (o : ElfObj) (n : Nat) : Prop :=
  1 ≤ n ∧ n < o.secs.length ∧ o.secName n = lit ".kpatch.info" ∧ ∀ i, 1 ≤ i → i < n → o.secName i ≠ lit ".kpatch.info"

/-- x86-64 psABI, table "Relocation Types": the numbers of the types that have a field the tool fills. -/
def x86Numbers : List (Nat × X86Rel) :=
  [(1, .r64), (2, .pc32), (9, .gotpcrel), (10, .r32), (11, .r32s), (22, .gottpoff), (41, .gotpcrelx), (42, .rexGotpcrelx)]
/-- Size of the field by the number of the type. -/
def x86FieldSize (r : Rela Nat) : Nat :=
  if r.typ = 1 then 8 else if r.typ ∈ [2, 9, 10, 11, 22, 41, 42] then 4 else 0

/-- ELF for the Arm 64-bit architecture, "Relocation types". -/
def a64Numbers : List (Nat × A64Rel) :=
  [(257, .abs64), (275, .adrPrelPgHi21), (277, .addAbsLo12), (278, .ldst8Lo12), (282, .jump26), (283, .call26),
   (285, .ldst32Lo12), (286, .ldst64Lo12), (311, .adrGotPage), (312, .ld64GotLo12), (541, .tlsieAdrPage21)]
def a64FieldSize (r : Rela Nat) : Nat :=
  if r.typ = 257 then 8 else if r.typ ∈ [275, 277, 278, 282, 283, 285, 286, 311, 312, 541] then 4 else 0

/-- LoongArch psABI, "Relocation types", as far as `loongUse` says what they are for. -/
def loongNumbers : List (Nat × LoongRel) :=
  [(1, .r32), (2, .r64), (50, .add32), (51, .add64), (55, .sub32), (56, .sub64), (64, .b16), (65, .b21), (66, .b26),
   (68, .absLo12), (72, .pcalaLo12), (103, .pcrel20)]
def loongFieldSize (r : Rela Nat) : Nat :=
  if r.typ ∈ [2, 51, 56] then 8
  else if r.typ ∈ [1, 50, 55, 64, 65, 66, 67, 68, 71, 72, 75, 76, 79, 80, 87, 88, 91, 92, 103] then 4 else 0

/-- RISC-V ELF psABI, "Relocations", as far as `rvUse` says what they are for, and the lower halves of pc-relative pairs. -/
def rvNumbers : List (Nat × RvRel) :=
  [(1, .r32), (2, .r64), (17, .jal), (18, .call), (19, .callPlt), (21, .tlsGotHi20), (23, .pcrelHi20), (24, .pcrelLo12I),
   (25, .pcrelLo12S), (26, .hi20), (27, .lo12I), (28, .lo12S), (45, .rvcJump), (46, .rvcLui), (56, .set32), (57, .r32Pcrel)]
def rvFieldSize (r : Rela Nat) : Nat :=
  if r.typ ∈ [2, 18, 19] then 8
  else if r.typ ∈ [45, 46] then 2
  else if r.typ ∈ [1, 17, 21, 23, 24, 25, 26, 27, 28, 56, 57] then 4 else 0

end Verif
