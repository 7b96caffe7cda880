import Verif.Model.Mem
/-
Specification: what the processors do with the instructions the tool installs.  Written from the
architecture manuals, without reference to the model's encoders.
-/
namespace Verif.Cpu

/-- Little-endian 32-bit fetch of four bytes. -/
def fetch32 (b0 b1 b2 b3 : Byte) : BitVec 32 :=
  b0.setWidth 32 ||| (b1.setWidth 32 <<< 8) ||| (b2.setWidth 32 <<< 16) ||| (b3.setWidth 32 <<< 24)

/-- x86-64 `E9 rel32`: `RIP := RIP_of_next_instruction + sign_extend(rel32)`.  `none` if the bytes are
not that instruction. -/
def x86Jmp (pc : BitVec 64) : List Byte → Option (BitVec 64)
  | [op, b0, b1, b2, b3] =>
    if op = 0xe9#8 then some (pc + 5#64 + (fetch32 b0 b1 b2 b3).signExtend 64) else none
  | _ => none

/-- AArch64 `B imm26` (bits 31..26 = 000101): `PC := PC + sign_extend(imm26:00)`. -/
def aarch64B (pc : BitVec 64) : List Byte → Option (BitVec 64)
  | [b0, b1, b2, b3] =>
    let w := fetch32 b0 b1 b2 b3
    if w.extractLsb' 26 6 = 0b000101#6 then
      some (pc + ((w.extractLsb' 0 26).setWidth 28 <<< 2).signExtend 64)
    else none
  | _ => none

/-- LoongArch `B offs26` (bits 31..26 = 010100): the offset is `offs[25:16]` from bits 9..0 and
`offs[15:0]` from bits 25..10; `PC := PC + sign_extend(offs26:00)`. -/
def loongB (pc : BitVec 64) : List Byte → Option (BitVec 64)
  | [b0, b1, b2, b3] =>
    let w := fetch32 b0 b1 b2 b3
    if w.extractLsb' 26 6 = 0b010100#6 then
      let offs : BitVec 26 := (w.extractLsb' 10 16).setWidth 26 ||| ((w.extractLsb' 0 10).setWidth 26 <<< 16)
      some (pc + (offs.setWidth 28 <<< 2).signExtend 64)
    else none
  | _ => none

/-- RISC-V `auipc rd, imm20` (opcode 0010111): value written to `rd`. -/
def rvAuipc (pc : BitVec 64) (w : BitVec 32) : Option (BitVec 5 × BitVec 64) :=
  if w.extractLsb' 0 7 = 0b0010111#7 then
    some (w.extractLsb' 7 5, pc + ((w.extractLsb' 12 20).setWidth 32 <<< 12).signExtend 64)
  else none

/-- RISC-V `jalr x0, imm12(rs1)` (opcode 1100111, funct3 = 0, rd = 0): the target is
`(rs1 + sign_extend(imm12)) & ~1`. -/
def rvJalr (w : BitVec 32) (rs1 : BitVec 5) (v : BitVec 64) : Option (BitVec 64) :=
  if w.extractLsb' 0 7 = 0b1100111#7 ∧ w.extractLsb' 7 5 = 0#5 ∧ w.extractLsb' 12 3 = 0#3 ∧
      w.extractLsb' 15 5 = rs1 then
    some ((v + (w.extractLsb' 20 12).signExtend 64) &&& ~~~1#64)
  else none

/-- RISC-V pair `auipc rd, hi; jalr x0, lo(rd)`. -/
def rvFarJump (pc : BitVec 64) : List Byte → Option (BitVec 64)
  | [a0, a1, a2, a3, b0, b1, b2, b3] =>
    match rvAuipc pc (fetch32 a0 a1 a2 a3) with
    | some (rd, v) => rvJalr (fetch32 b0 b1 b2 b3) rd v
    | none => none
  | _ => none

end Verif.Cpu
