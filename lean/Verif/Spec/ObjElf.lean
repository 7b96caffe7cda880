import Verif.Model.ObjElf
import Verif.Spec.Elf
import Verif.Spec.Memory
import Verif.Spec.PatchElf
/-
Specification: what an ELF program or library is in the memory of a process (System V gABI, 64-bit,
little-endian, and what the dynamic linker does to it).  Nothing here refers to how the tool reads it.
-/
namespace Verif

/-- The `n`-byte little-endian number stored at address `a` is `v`. -/
def NumIn (m : Mem) (a n v : Nat) : Prop :=
  v < 256 ^ n ∧ ∀ j, j < n → m (a + j) = some (BitVec.ofNat 8 (v / 256 ^ j))

/-- The NUL-terminated string at address `a` is `s`. -/
def StrIn (m : Mem) (a : Nat) (s : CStr) : Prop :=
  0#8 ∉ s ∧ (∀ j (h : j < s.length), m (a + j) = some s[j]) ∧ m (a + s.length) = some 0#8

/-- `Elf64_Phdr` at `a`: type, flags, offset, address, (physical address,) size in the file, size in memory. -/
structure PhdrIn (m : Mem) (a : Nat) (p : ElfPhdr) : Prop where
  typ : NumIn m a 4 p.typ
  flags : NumIn m (a + 4) 4 p.flags
  offset : NumIn m (a + 8) 8 p.offset.toNat
  vaddr : NumIn m (a + 16) 8 p.vaddr.toNat
  filesz : NumIn m (a + 32) 8 p.filesz.toNat
  memsz : NumIn m (a + 40) 8 p.memsz.toNat

/-- The ELF header at `start` and the program headers it names: magic number, type, offset, size and number
of the program headers.  At least 1024 bytes are mapped there. -/
structure HeadersIn (m : Mem) (start typ : Nat) (phdrs : List ElfPhdr) : Prop where
  mapped : Mapped m start 1024
  magic : Holds m start [0x7f#8, 0x45#8, 0x4c#8, 0x46#8]
  typ : NumIn m (start + 16) 2 typ
  entsize : NumIn m (start + 54) 2 56
  phnum : NumIn m (start + 56) 2 phdrs.length
  nonempty : phdrs ≠ []
  table : ∃ phoff, NumIn m (start + 32) 8 phoff ∧ start + phoff + 56 * phdrs.length < 2 ^ 64 ∧
    Mapped m (start + phoff) (56 * phdrs.length) ∧
    ∀ (i : Nat) (p : ElfPhdr), phdrs[i]? = some p → PhdrIn m (start + phoff + 56 * i) p

/-- The entries of the dynamic section, in memory at `addr`: pairs of a tag and a value. -/
structure DynamicIn (m : Mem) (addr size : Nat) (entries : List (Nat × Nat)) : Prop where
  mapped : Mapped m addr size
  length : entries.length = size / 16
  entry : ∀ (i : Nat) (e : Nat × Nat), entries[i]? = some e →
    NumIn m (addr + 16 * i) 8 e.1 ∧ NumIn m (addr + 16 * i + 8) 8 e.2

/-- The value of the (only) entry with the tag. -/
def DynValue (entries : List (Nat × Nat)) (tag v : Nat) : Prop :=
  (tag, v) ∈ entries ∧ ∀ w, (tag, w) ∈ entries → w = v

/-- `Elf64_Sym` at `a`, whose name is in the string table at `strtab`. -/
structure DynSymIn (m : Mem) (a strtab strsz : Nat) (s : DynSym) : Prop where
  nameOff : NumIn m a 4 s.nameOff
  info : ∃ b t, s.typ.hasCode t ∧ NumIn m (a + 4) 1 (16 * b + t)
  shndx : NumIn m (a + 6) 2 s.shndx
  value : NumIn m (a + 8) 8 s.value.toNat
  name : StrIn m (strtab + s.nameOff) s.name
  inside : s.nameOff + s.name.length < strsz

/-- The run-time address that the dynamic section means by the address `v`, if the dynamic linker has added
the load offset to the entry itself (`relocated`), and if not. -/
def dynAddress (relocated : Bool) (load : BitVec 64) (v : Nat) : Nat :=
  if relocated then v else (v + load.toNat) % 2 ^ 64

/-- glibc relocates the addresses of the dynamic section in place, except on RISC-V. -/
def glibcRelocates (a : Arch) : Bool := a ≠ .riscv64

/-- The dynamic symbol table of a loaded object: the tables named by its dynamic section.  `gap` bytes lie
between the end of the symbol table and the string table. -/
structure SymbolsIn (rel : Bool) (gap : Nat) (m : Mem) (load : BitVec 64) (phdrs : List ElfPhdr) (syms : List DynSym) : Prop where
  tables : ∃ (p : ElfPhdr) (entries : List (Nat × Nat)) (symtab strtab strsz : Nat),
    p ∈ phdrs ∧ p.typ = 2 ∧ (∀ q ∈ phdrs, q.typ = 2 → q = p) ∧
    DynamicIn m (load + p.vaddr).toNat p.memsz.toNat entries ∧
    DynValue entries 6 symtab ∧ DynValue entries 5 strtab ∧ DynValue entries 10 strsz ∧ DynValue entries 11 24 ∧
    dynAddress rel load strtab = dynAddress rel load symtab + 24 * syms.length + gap ∧
    dynAddress rel load strtab + strsz < 2 ^ 64 ∧
    Mapped m (dynAddress rel load symtab) (24 * syms.length + gap + strsz) ∧
    ∀ (k : Nat) (s : DynSym), syms[k]? = some s →
      DynSymIn m (dynAddress rel load symtab + 24 * k) (dynAddress rel load strtab) strsz s

/-- The load offset: the difference between the first mapped page and the page of the lowest loaded segment. -/
def LoadOffset (page : BitVec 64) (start : Nat) (phdrs : List ElfPhdr) (load : BitVec 64) : Prop :=
  ∃ p ∈ phdrs, p.typ = 1 ∧ (∀ q ∈ phdrs, q.typ = 1 → p.vaddr ≤ q.vaddr) ∧
    load = BitVec.ofNat 64 start - pageDown page p.vaddr

end Verif
