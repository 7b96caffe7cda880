import Verif.Model.Reloc
/-
Relocations of LoongArch patches, `src/arch/loongarch64/arch_elf.c` 32-227 and
`src/arch/loongarch64/loongarch64_imm.h`.
-/
namespace Verif

/-- The `R_LARCH_*` types the code knows.  `tlsOther` are the thread-local types that only appear in
`adjust_got_jump_table`. `src/arch/loongarch64/arch_elf.c:37-218`. -/
inductive LoongRel where
  | none | relax | r32 | r64 | add32 | add64 | sub32 | sub64
  | absHi20 | pcalaHi20 | absLo12 | pcalaLo12 | b16 | b21 | b26 | pcrel20
  | gotPcHi20 | tlsIePcHi20 | gotPcLo12 | tlsIePcLo12 | gotHi20 | tlsIeHi20 | gotLo12 | tlsIeLo12
  | jumpSlot | tlsOther
  | other (n : Nat)
  deriving DecidableEq, Repr

/-- `set_2ri12_imm`, `loongarch64_imm.h` 22-25. -/
def laSet2ri12 (ins imm : BitVec 32) : BitVec 32 := (ins &&& ~~~(0xfff#32 <<< 10)) ||| ((imm &&& 0xfff#32) <<< 10)
/-- `set_2ri16_imm`, `loongarch64_imm.h` 34-37. -/
def laSet2ri16 (ins imm : BitVec 32) : BitVec 32 := (ins &&& ~~~(0xffff#32 <<< 10)) ||| ((imm &&& 0xffff#32) <<< 10)
/-- `set_1ri21_imm`, `loongarch64_imm.h` 40-46 (`offset` is signed, `>>` arithmetic). -/
def laSet1ri21 (ins off : BitVec 32) : BitVec 32 :=
  let v := off.sshiftRight 2
  (ins &&& ~~~((0xffff#32 <<< 10) ||| 0x1f#32)) ||| ((v &&& 0xffff#32) <<< 10) ||| ((v >>> 16) &&& 0x1f#32)
/-- `set_i26_imm`, `loongarch64_imm.h` 49-55. -/
def laSetI26 (ins off : BitVec 32) : BitVec 32 :=
  let v := off.sshiftRight 2
  (ins &&& ~~~((0xffff#32 <<< 10) ||| 0x3ff#32)) ||| ((v &&& 0xffff#32) <<< 10) ||| ((v >>> 16) &&& 0x3ff#32)
/-- `set_pcrel_imm`, `loongarch64_imm.h` 58-62. -/
def laSetPcrel (ins imm : BitVec 32) : BitVec 32 :=
  (ins &&& ~~~(0xfffff#32 <<< 5)) ||| (((imm >>> 2) &&& 0xfffff#32) <<< 5)

/-- `adjust_got_jump_table`, `src/arch/loongarch64/arch_elf.c` 32-63. -/
def loongAdjust (load : BitVec 64) (r : Rela LoongRel) (s : Sym) : BitVec 64 :=
  match r.typ with
  | .gotPcHi20 | .gotPcLo12 | .gotHi20 | .gotLo12 => s.value + r.addend
  | .jumpSlot => if s.shndx = 0 then (if s.value = 0#64 then -1#64 else s.value) else 0#64
  | .tlsIePcHi20 | .tlsIePcLo12 | .tlsOther => r.addend + load
  | _ => 0#64

/-- `val`, `src/arch/loongarch64/arch_elf.c` 113-118: the result of `adjust_got_jump_table` is only
compared with `-1` and `1`. -/
def loongVal (load : BitVec 64) (r : Rela LoongRel) (s : Sym) : Option (BitVec 64) :=
  if loongAdjust load r s = -1#64 then none
  else if loongAdjust load r s = 1#64 then some s.value
  else some (s.value + r.addend)

/-- The range and alignment tests of the branch types, `src/arch/loongarch64/arch_elf.c` 151-159: `n` is
the number of bits of the byte offset without sign. -/
def laInRange (n : Nat) (off : BitVec 64) : Bool :=
  decide (-(2 ^ n : Int) ≤ off.toInt) && decide (off.toInt < 2 ^ n) && (off &&& 3#64) == 0#64

/-- The `switch`, `src/arch/loongarch64/arch_elf.c` 120-223. -/
def loongApply (t : LoongRel) (val loc2 : BitVec 64) (data : List Byte) : Act :=
  let w := ld32 data
  let off := val - loc2
  match t with
  | .none | .relax => .write []
  | .r32 => .write (le32 (val.setWidth 32))
  | .r64 => .write (le64 val)
  | .add32 => .write (le32 (w + val.setWidth 32))
  | .add64 => .write (le64 (ld64 data + val))
  | .sub32 => .write (le32 (w - val.setWidth 32))
  | .sub64 => .write (le64 (ld64 data - val))
  | .absHi20 => .write (le32 (laSetPcrel w ((val >>> 12).setWidth 32)))
  | .pcalaHi20 =>
    .write (le32 (laSetPcrel w ((((val + 0x800#64) &&& ~~~0xfff#64) - (loc2 &&& ~~~0xfff#64)) >>> 12 |>.setWidth 32)))
  | .absLo12 | .pcalaLo12 => .write (le32 (laSet2ri12 w (val.setWidth 32)))
  | .b16 => if laInRange 17 off then .write (le32 (laSet2ri16 w (off.setWidth 32))) else .fail
  | .b21 => if laInRange 22 off then .write (le32 (laSet1ri21 w (off.setWidth 32))) else .fail
  | .b26 => if laInRange 27 off then .write (le32 (laSetI26 w (off.setWidth 32))) else .fail
  | .pcrel20 => if laInRange 21 off then .write (le32 (laSetPcrel w (off.setWidth 32))) else .fail
  | .gotPcHi20 | .tlsIePcHi20 =>
    .write (le32 (laSetPcrel w (((val &&& ~~~0xfff#64) - (loc2 &&& ~~~0xfff#64)) >>> 12 |>.setWidth 32)))
  | .gotPcLo12 | .tlsIePcLo12 => .write (le32 (laSet2ri12 w ((val &&& 0xfff#64).setWidth 32)))
  | .gotHi20 | .tlsIeHi20 => .write (le32 (laSetPcrel w ((val.setWidth 32).sshiftRight 12)))
  | .gotLo12 | .tlsIeLo12 => .write (le32 (laSet2ri12 w (val.setWidth 32)))
  | .jumpSlot | .tlsOther | .other _ => .fail

/-- Body of the loop, `src/arch/loongarch64/arch_elf.c` 108-223. -/
def loongAct (load : BitVec 64) (sec : RelSec) (r : Rela LoongRel) (s : Sym) (data : List Byte) : Act :=
  match loongVal load r s with
  | none => .fail
  | some val => loongApply r.typ val (sec.addr + BitVec.ofNat 64 r.offset) data

/-- `kpatch_arch_apply_relocate_add` for LoongArch, `src/arch/loongarch64/arch_elf.c` 65-227. -/
def loongRelocate (load : BitVec 64) (sec : RelSec) (syms : List Sym) (rs : List (Rela LoongRel))
    (img : List Byte) : List Byte × Bool :=
  relocLoop (loongAct load sec) sec syms rs img

end Verif
