import Verif.Model.Reloc
/-
Relocations of AArch64 patches, `src/arch/aarch64/arch_elf.c` 39-240.
-/
namespace Verif

/-- The `R_AARCH64_*` types the code knows. `src/arch/aarch64/arch_elf.c:47-157`. -/
inductive A64Rel where
  | none | tlsieLd64Lo12 | tlsieAdrPage21 | abs64 | addAbsLo12 | call26 | adrPrelPgHi21 | adrGotPage
  | ld64GotLo12 | jump26 | ldst32Lo12 | ldst64Lo12 | ldst8Lo12
  | other (n : Nat)
  deriving DecidableEq, Repr

/-- The update of an `ADRP` instruction, `src/arch/aarch64/arch_elf.c` 52-56, 86-90 and 97-101 (the
three copies are identical). -/
def a64SetAdrp (w : BitVec 32) (val loc2 : BitVec 64) : BitVec 32 :=
  let v := (val >>> 12) - (loc2 >>> 12)
  let immLo : BitVec 32 := ((v &&& 0x3#64) <<< 29).setWidth 32
  let immHi : BitVec 32 := ((v &&& 0x1FFFFC#64) <<< 3).setWidth 32
  let mask : BitVec 32 := (0x3#32 <<< 29) ||| (0x1FFFFC#32 <<< 3)
  (w &&& ~~~mask) ||| immLo ||| immHi

/-- `src/arch/aarch64/arch_elf.c` 66-69: the 12-bit immediate of an `ADD`. -/
def a64SetLo12 (w : BitVec 32) (val : BitVec 64) : BitVec 32 :=
  (w &&& ~~~(0xfff#32 <<< 10)) ||| (((val &&& 0xfff#64) <<< 10).setWidth 32)

/-- The 12-bit immediate of a load or store, `src/arch/aarch64/arch_elf.c` 117-119, 143-145, 151-153
and 159-161: always scaled by 8. -/
def a64SetLdst (w : BitVec 32) (val : BitVec 64) : BitVec 32 :=
  (w &&& ~~~(0xfff#32 <<< 10)) ||| ((((val &&& 0xfff#64) >>> 3) <<< 10).setWidth 32)

/-- `R_AARCH64_CALL26`, `src/arch/aarch64/arch_elf.c` 76-79. -/
def a64SetCall26 (w : BitVec 32) (val loc2 : BitVec 64) : BitVec 32 :=
  (w &&& ~~~0x03FFFFFF#32) ||| (((val - loc2) >>> 2 &&& 0x03FFFFFF#64).setWidth 32)

/-- `R_AARCH64_JUMP26`, `src/arch/aarch64/arch_elf.c` 134-137. -/
def a64SetJump26 (w : BitVec 32) (val loc2 : BitVec 64) : BitVec 32 :=
  (w &&& (0x3f#32 <<< 26)) ||| ((((val >>> 2) - (loc2 >>> 2)) &&& 0x03FFFFFF#64).setWidth 32)

/-- `LDR` turned into `ADD`, `src/arch/aarch64/arch_elf.c` 122-123. -/
def a64LdrToAdd (w : BitVec 32) : BitVec 32 := (w &&& ~~~(0x3ff#32 <<< 22)) ||| (0x244#32 <<< 22)

/-- `kpatch_arch_apply_relocate`, `src/arch/aarch64/arch_elf.c` 39-170. -/
def a64Apply (t : A64Rel) (s : Sym) (w : BitVec 32) (loc2 val : BitVec 64) : Act :=
  match t with
  | .none | .tlsieLd64Lo12 => .write []
  | .tlsieAdrPage21 | .adrPrelPgHi21 | .adrGotPage => .write (le32 (a64SetAdrp w val loc2))
  | .abs64 => .write (le64 val)
  | .addAbsLo12 => .write (le32 (a64SetLo12 w val))
  | .call26 => .write (le32 (a64SetCall26 w val loc2))
  | .ld64GotLo12 =>
    if s.typ = .object ∧ s.shndx = 0 ∧ s.bind = .glob then
      .write (le32 (a64SetLdst w (val + 8#64)))
    else .write (le32 (a64SetLo12 (a64LdrToAdd w) val))
  | .jump26 => .write (le32 (a64SetJump26 w val loc2))
  | .ldst32Lo12 | .ldst64Lo12 | .ldst8Lo12 => .write (le32 (a64SetLdst w val))
  | .other _ => .fail

/-- Body of the loop, `src/arch/aarch64/arch_elf.c` 212-236; `.stop` is the `return 0` of line 229. -/
def a64Act (load : BitVec 64) (sec : RelSec) (r : Rela A64Rel) (s : Sym) (data : List Byte) : Act :=
  let loc2 := sec.addr + BitVec.ofNat 64 r.offset
  let val := if sec.isInfo && s.isUndef then s.size else s.value + r.addend
  if s.typ = .tls ∧ s.bind = .loc then .stop
  else
    let val := if s.typ = .tls then r.addend + load else val
    a64Apply r.typ s (ld32 data) loc2 val

/-- `kpatch_arch_apply_relocate_add` for AArch64, `src/arch/aarch64/arch_elf.c` 172-240. -/
def a64Relocate (load : BitVec 64) (sec : RelSec) (syms : List Sym) (rs : List (Rela A64Rel))
    (img : List Byte) : List Byte × Bool :=
  relocLoop (a64Act load sec) sec syms rs img

end Verif
