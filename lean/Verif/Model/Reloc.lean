import Verif.Model.Arch
import Verif.Model.Bytes
/-
Relocation of the patch image before it is written into the target: the parts common to all
architectures (`kpatch_arch_apply_relocate_add` in `src/arch/*/arch_elf.c`).

The image is the patch's ELF object as loaded by the tool (`ehdr` and what follows it).  The relocation
entries and the symbol table are parsed records kept beside the image; relocating a section does not
change them (the C code would change them only if a relocated section overlapped them in the file).
-/
namespace Verif

/-- `STT_*` of `<elf.h>` as far as the code distinguishes them. Used at `src/kpatch_elf.c:752-804`. -/
inductive SymType where
  | notype | object | func | sect | tls | ifunc | other
  deriving DecidableEq, Repr

/-- `STB_*` of `<elf.h>` as far as the code distinguishes them. Used at `src/kpatch_elf.c:516`, `src/kpatch_elf.c:762`, `src/kpatch_elf.c:790`. -/
inductive SymBind where
  | loc | glob | other
  deriving DecidableEq, Repr

/-- `GElf_Sym` (the name is kept where it is used, see `Verif.Model.Symbols`). Used at `src/kpatch_elf.c:743-813`. -/
structure Sym where
  value : BitVec 64
  size : BitVec 64 := 0
  shndx : Nat
  typ : SymType
  bind : SymBind := .glob
  deriving DecidableEq, Repr

/-- `is_undef_symbol`, `src/kpatch_elf.c` 485-488 (`SHN_UNDEF` or at least `SHN_LORESERVE`). -/
def Sym.isUndef (s : Sym) : Bool := s.shndx == 0 || decide (s.shndx ≥ 0xff00)

/-- `GElf_Rela`; `T` is the architecture's enumeration of relocation types. Used at `src/arch/x86/arch_elf.c:26-120`. -/
structure Rela (T : Type) where
  offset : Nat
  typ : T
  sym : Nat
  addend : BitVec 64

/-- What the code takes from the header of the section being relocated: `sh_offset`, `sh_size`,
`sh_addr` (its address in the target, set by `kpatch_resolve`) and whether it is called
`.kpatch.info`. `src/arch/x86/arch_elf.c:26-77`. -/
structure RelSec where
  fileOff : Nat
  size : Nat
  addr : BitVec 64
  isInfo : Bool := false

/-- `*(unsigned short *)p`. Used for example in `src/arch/aarch64/arch_elf.c:47-157`. -/
def ld16 : List Byte → BitVec 16
  | b0 :: b1 :: _ => b0.setWidth 16 ||| (b1.setWidth 16 <<< 8)
  | _ => 0

/-- `*(unsigned int *)p`: little-endian load (a load outside the image is undefined behaviour in C;
the theorems assume that the field lies inside its section). Used for example in `src/arch/aarch64/arch_elf.c:47-157`. -/
def ld32 : List Byte → BitVec 32
  | b0 :: b1 :: b2 :: b3 :: _ =>
    b0.setWidth 32 ||| (b1.setWidth 32 <<< 8) ||| (b2.setWidth 32 <<< 16) ||| (b3.setWidth 32 <<< 24)
  | _ => 0

/-- `*(unsigned long *)p`. Used for example in `src/arch/riscv64/arch_elf.c:159-264`. -/
def ld64 (bs : List Byte) : BitVec 64 :=
  (ld32 bs).setWidth 64 ||| ((ld32 (bs.drop 4)).setWidth 64 <<< 32)

/-- The bytes stored through `unsigned short *`. Used for example in `src/arch/riscv64/arch_elf.c:159-264`. -/
def le16 (w : BitVec 16) : List Byte := [w.extractLsb' 0 8, w.extractLsb' 8 8]

/-- The bytes stored through `unsigned long *`. Used for example in `src/arch/x86/arch_elf.c:78-110`. -/
def le64 (w : BitVec 64) : List Byte :=
  le32 (w.extractLsb' 0 32) ++ le32 (w.extractLsb' 32 32)

/-- Overwrite bytes of the image. The stores through `loc` of `src/arch/x86/arch_elf.c:78-110`. -/
def pokeAt (img : List Byte) (off : Nat) (bs : List Byte) : List Byte :=
  img.take off ++ bs ++ img.drop (off + bs.length)

/-- What handling one relocation does: fail, finish early with success, or store bytes at the
place (none for the types that are ignored). The body of the loops `src/arch/x86/arch_elf.c:26-120`, `src/arch/aarch64/arch_elf.c:39-240`, `src/arch/riscv64/arch_elf.c:103-280`, `src/arch/loongarch64/arch_elf.c:65-227`. -/
inductive Act where
  | fail
  | stop
  | write (bs : List Byte)
  deriving DecidableEq

/-- The loop over the relocations of a section: `src/arch/x86/arch_elf.c` 53-117, `aarch64` 199-237,
`loongarch64` 95-224.  `act r s data` is the body of the `switch`; `data` are the bytes of the image
from the place (`loc`) on.  A symbol index outside the table would read other memory in C; it is the
default symbol here. -/
def relocLoop {T : Type} (act : Rela T → Sym → List Byte → Act) (sec : RelSec) (syms : List Sym) :
    List (Rela T) → List Byte → List Byte × Bool
  | [], img => (img, true)
  | r :: rs, img =>
    if r.offset ≥ sec.size then (img, false)
    else
      match act r (syms.getD r.sym ⟨0, 0, 0, .notype, .loc⟩) (img.drop (sec.fileOff + r.offset)) with
      | .fail => (img, false)
      | .stop => (img, true)
      | .write bs => relocLoop act sec syms rs (pokeAt img (sec.fileOff + r.offset) bs)

/-! ### x86-64 -/

/-- The `R_X86_64_*` types the code knows. `src/arch/x86/arch_elf.c:78-110`. -/
inductive X86Rel where
  | none | r64 | r32 | r32s | gottpoff | gotpcrel | rexGotpcrelx | gotpcrelx | pc32 | tpoff64 | tpoff32
  | other (n : Nat)
  deriving DecidableEq, Repr

/-- Body of the loop of `kpatch_arch_apply_relocate_add`, `src/arch/x86/arch_elf.c` 66-116.
`load` is `o->load_offset`. -/
def x86Act (load : BitVec 64) (sec : RelSec) (r : Rela X86Rel) (s : Sym) (_data : List Byte) : Act :=
  let loc2 := sec.addr + BitVec.ofNat 64 r.offset
  let val := if sec.isInfo && s.isUndef then s.size else s.value + r.addend
  match r.typ with
  | .none => .write []
  | .r64 => .write (le64 val)
  | .r32 | .r32s => .write (le32 (val.setWidth 32))
  | .gottpoff | .gotpcrel | .rexGotpcrelx | .gotpcrelx =>
    let val := if s.isUndef then val + 8#64
      else if s.typ = .tls then r.addend + load - 4#64 else val
    .write (le32 ((val - loc2).setWidth 32))
  | .pc32 => .write (le32 ((val - loc2).setWidth 32))
  | .tpoff64 | .tpoff32 => .write []
  | .other _ => .fail

/-- `kpatch_arch_apply_relocate_add` for x86-64, `src/arch/x86/arch_elf.c` 26-120 (the search for the
symbol table, 39-47, is not modelled: there is one). -/
def x86Relocate (load : BitVec 64) (sec : RelSec) (syms : List Sym) (rs : List (Rela X86Rel))
    (img : List Byte) : List Byte × Bool :=
  relocLoop (x86Act load sec) sec syms rs img

end Verif
