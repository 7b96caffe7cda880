import Verif.Spec.Cpu
/-
Specification: what a relocated field denotes, written from the processor manuals and the psABI
documents without reference to the code that stores the fields.
-/
namespace Verif.Cpu

/-- The four bytes of a 32-bit field. -/
def field32 : List Byte → Option (BitVec 32)
  | [b0, b1, b2, b3] => some (fetch32 b0 b1 b2 b3)
  | _ => none

/-- The eight bytes of a 64-bit field. -/
def field64 : List Byte → Option (BitVec 64)
  | [b0, b1, b2, b3, b4, b5, b6, b7] =>
    some ((fetch32 b0 b1 b2 b3).setWidth 64 ||| ((fetch32 b4 b5 b6 b7).setWidth 64 <<< 32))
  | _ => none

/-- The `n` bytes at `off` of an image. -/
def bytesAt (img : List Byte) (off n : Nat) : List Byte := (img.drop off).take n

/-- How x86-64 uses a field: a 64-bit address, a 32-bit address that the instruction zero-extends, one
that it sign-extends, or a displacement.  A displacement is added to the address of the following
instruction; the assembler puts the distance between the field and that instruction into the addend,
so in terms of the field's own address `p` the denoted address is `p + sign_extend(field)`. -/
inductive X86Use where
  | abs64 | abs32 | abs32s | rel32

/-- Number of bytes of the field. -/
def X86Use.width : X86Use → Nat
  | .abs64 => 8
  | _ => 4

/-- The address a field at address `p` denotes. -/
def X86Use.denotes (u : X86Use) (p : BitVec 64) (field : List Byte) : Option (BitVec 64) :=
  match u with
  | .abs64 => field64 field
  | .abs32 => (field32 field).map fun w => w.setWidth 64
  | .abs32s => (field32 field).map fun w => w.signExtend 64
  | .rel32 => (field32 field).map fun w => p + w.signExtend 64

/-- The addresses a field at address `p` can denote at all. -/
def X86Use.canDenote (u : X86Use) (p a : BitVec 64) : Prop :=
  match u with
  | .abs64 => True
  | .abs32 => a.toNat < 2 ^ 32
  | .abs32s => -(2 ^ 31 : Int) ≤ a.toInt ∧ a.toInt < 2 ^ 31
  | .rel32 => -(2 ^ 31 : Int) ≤ (a - p).toInt ∧ (a - p).toInt < 2 ^ 31

/-! ### AArch64 -/

/-- The 4 KiB page of an address. -/
def page (a : BitVec 64) : BitVec 64 := a &&& ~~~0xfff#64
/-- The offset of an address in its page. -/
def low12 (a : BitVec 64) : BitVec 64 := a &&& 0xfff#64

/-- `ADRP Xd, imm` (bit 31 = 1, bits 28..24 = 10000): destination register and the value it gets,
`page(PC) + sign_extend(immhi:immlo:000000000000)`. -/
def a64Adrp (pc : BitVec 64) (w : BitVec 32) : Option (BitVec 5 × BitVec 64) :=
  if w.extractLsb' 31 1 = 1#1 ∧ w.extractLsb' 24 5 = 0b10000#5 then
    let imm : BitVec 21 := ((w.extractLsb' 5 19).setWidth 21 <<< 2) ||| (w.extractLsb' 29 2).setWidth 21
    some (w.extractLsb' 0 5, page pc + (imm.setWidth 33 <<< 12).signExtend 64)
  else none

/-- `ADD Xd, Xn, #imm12` (bits 31..22 = 1001000100): `(d, n, imm)`, the result is `Xn + imm`. -/
def a64AddImm (w : BitVec 32) : Option (BitVec 5 × BitVec 5 × BitVec 64) :=
  if w.extractLsb' 22 10 = 0b1001000100#10 then
    some (w.extractLsb' 0 5, w.extractLsb' 5 5, (w.extractLsb' 10 12).setWidth 64)
  else none

/-- A load or store of a general register with unsigned offset. -/
structure A64Mem where
  /-- access size is `2 ^ size` bytes -/
  size : BitVec 2
  /-- kind of access: 0 store, 1 load, ... -/
  opc : BitVec 2
  rt : BitVec 5
  rn : BitVec 5
  /-- the accessed address is `Xn + offset` -/
  offset : BitVec 64
  deriving DecidableEq

/-- Load/store register, unsigned immediate (bits 29..24 = 111001): the immediate is scaled by the
access size. -/
def a64LdSt (w : BitVec 32) : Option A64Mem :=
  if w.extractLsb' 24 6 = 0b111001#6 then
    some { size := w.extractLsb' 30 2, opc := w.extractLsb' 22 2, rt := w.extractLsb' 0 5, rn := w.extractLsb' 5 5
           offset := (w.extractLsb' 10 12).setWidth 64 <<< (w.extractLsb' 30 2) }
  else none

/-- `B` and `BL` (bits 30..26 = 00101, bit 31 tells whether the return address is saved): `(link,
target)`. -/
def a64Branch (pc : BitVec 64) (w : BitVec 32) : Option (Bool × BitVec 64) :=
  if w.extractLsb' 26 5 = 0b00101#5 then
    some (w.getLsbD 31, pc + ((w.extractLsb' 0 26).setWidth 28 <<< 2).signExtend 64)
  else none

/-- What a relocation is for. -/
inductive A64Use where
  /-- a 64-bit address constant -/
  | abs64
  /-- `ADRP` of the page -/
  | adrp
  /-- `ADD` of the offset in the page -/
  | addImm
  /-- load or store with the offset in the page -/
  | ldst
  /-- `B` or `BL` -/
  | branch
  /-- the load of a pointer replaced by the computation of the pointer: `LDR Xt, [Xn, #o]` became
  `ADD Xt, Xn, #o` -/
  | ldrToAdd

/-- Number of bytes of the field. -/
def A64Use.width : A64Use → Nat
  | .abs64 => 8
  | _ => 4

/-- `new` does with address `x`, at address `p`, what the old bytes `old` were meant to do, with the
same registers. -/
def A64Use.denotes (u : A64Use) (p x : BitVec 64) (old new : List Byte) : Prop :=
  match u with
  | .abs64 => field64 new = some x
  | .adrp => ∀ rd v, (field32 old).bind (a64Adrp p) = some (rd, v) →
      (field32 new).bind (a64Adrp p) = some (rd, page x)
  | .addImm => ∀ rd rn o, (field32 old).bind a64AddImm = some (rd, rn, o) →
      (field32 new).bind a64AddImm = some (rd, rn, low12 x)
  | .ldst => ∀ i, (field32 old).bind a64LdSt = some i →
      (field32 new).bind a64LdSt = some { i with offset := low12 x }
  | .branch => ∀ l t, (field32 old).bind (a64Branch p) = some (l, t) →
      (field32 new).bind (a64Branch p) = some (l, x)
  | .ldrToAdd => ∀ i, (field32 old).bind a64LdSt = some i → i.size = 3 → i.opc = 1 →
      (field32 new).bind a64AddImm = some (i.rt, i.rn, low12 x)

/-- The address can be expressed by the instruction. -/
def A64Use.canDenote (u : A64Use) (p x : BitVec 64) (old : List Byte) : Prop :=
  match u with
  | .adrp => -(2 ^ 32 : Int) ≤ (page x - page p).toInt ∧ (page x - page p).toInt < 2 ^ 32
  | .ldst => ∀ i, (field32 old).bind a64LdSt = some i → x.toNat % 2 ^ i.size.toNat = 0
  | .branch => p.toNat % 4 = 0 ∧ x.toNat % 4 = 0 ∧
      -(2 ^ 27 : Int) ≤ (x - p).toInt ∧ (x - p).toInt < 2 ^ 27
  | _ => True

/-- The page and the offset in the page make up the address: an `ADRP` and an `ADD` (or a load or store)
using its result together produce `x`. -/
theorem page_add_low12 (x : BitVec 64) : page x + low12 x = x := by
  unfold page low12
  generalize 0xfff#64 = c
  rw [BitVec.add_eq_or_of_and_eq_zero]
  · ext i hi; simp; grind
  · ext i hi; simp; grind

/-! ### LoongArch -/

/-- Instructions with a 12-bit immediate (`addi.d`, `ori`, `ld.d`, ...): opcode, destination, base and
immediate. -/
structure LaImm12 where
  op : BitVec 10
  rd : BitVec 5
  rj : BitVec 5
  imm : BitVec 12
  deriving DecidableEq

/-- Format 2RI12. -/
def laImm12 (w : BitVec 32) : LaImm12 :=
  { op := w.extractLsb' 22 10, rd := w.extractLsb' 0 5, rj := w.extractLsb' 5 5, imm := w.extractLsb' 10 12 }

/-- Conditional branch with two registers (`beq` .. `bgeu`, opcodes 010110 .. 011011):
`(op, rj, rd, target)`, `target = PC + sign_extend(offs16:00)`. -/
def laBranch16 (pc : BitVec 64) (w : BitVec 32) : Option (BitVec 6 × BitVec 5 × BitVec 5 × BitVec 64) :=
  if 0b010110 ≤ (w.extractLsb' 26 6).toNat ∧ (w.extractLsb' 26 6).toNat ≤ 0b011011 then
    some (w.extractLsb' 26 6, w.extractLsb' 5 5, w.extractLsb' 0 5,
      pc + ((w.extractLsb' 10 16).setWidth 18 <<< 2).signExtend 64)
  else none

/-- `beqz` and `bnez` (opcodes 010000 and 010001): `(op, rj, target)`; the offset is
`offs[20:16]` from bits 4..0 and `offs[15:0]` from bits 25..10. -/
def laBranch21 (pc : BitVec 64) (w : BitVec 32) : Option (BitVec 6 × BitVec 5 × BitVec 64) :=
  if w.extractLsb' 26 6 = 0b010000#6 ∨ w.extractLsb' 26 6 = 0b010001#6 then
    let offs : BitVec 21 := (w.extractLsb' 10 16).setWidth 21 ||| ((w.extractLsb' 0 5).setWidth 21 <<< 16)
    some (w.extractLsb' 26 6, w.extractLsb' 5 5, pc + (offs.setWidth 23 <<< 2).signExtend 64)
  else none

/-- `b` and `bl` (opcodes 010100 and 010101): `(op, target)`. -/
def laBranch26 (pc : BitVec 64) (w : BitVec 32) : Option (BitVec 6 × BitVec 64) :=
  if w.extractLsb' 26 6 = 0b010100#6 ∨ w.extractLsb' 26 6 = 0b010101#6 then
    let offs : BitVec 26 := (w.extractLsb' 10 16).setWidth 26 ||| ((w.extractLsb' 0 10).setWidth 26 <<< 16)
    some (w.extractLsb' 26 6, pc + (offs.setWidth 28 <<< 2).signExtend 64)
  else none

/-- `pcaddi rd, si20` (opcode 0001100): `(rd, PC + sign_extend(si20:00))`. -/
def laPcaddi (pc : BitVec 64) (w : BitVec 32) : Option (BitVec 5 × BitVec 64) :=
  if w.extractLsb' 25 7 = 0b0001100#7 then
    some (w.extractLsb' 0 5, pc + ((w.extractLsb' 5 20).setWidth 22 <<< 2).signExtend 64)
  else none

/-- `pcalau12i rd, si20` (opcode 0001101): `(rd, page(PC + sign_extend(si20:000000000000)))`. -/
def laPcalau12i (pc : BitVec 64) (w : BitVec 32) : Option (BitVec 5 × BitVec 64) :=
  if w.extractLsb' 25 7 = 0b0001101#7 then
    some (w.extractLsb' 0 5, page (pc + ((w.extractLsb' 5 20).setWidth 32 <<< 12).signExtend 64))
  else none

/-- `lu12i.w rd, si20` (opcode 0001010): `(rd, sign_extend(si20:000000000000))`. -/
def laLu12i (w : BitVec 32) : Option (BitVec 5 × BitVec 64) :=
  if w.extractLsb' 25 7 = 0b0001010#7 then
    some (w.extractLsb' 0 5, ((w.extractLsb' 5 20).setWidth 32 <<< 12).signExtend 64)
  else none

/-- What a LoongArch relocation is for. -/
inductive LaUse where
  | abs32 | abs64
  /-- add or subtract the address to or from the datum -/
  | add32 | add64 | sub32 | sub64
  /-- low 12 bits in an immediate -/
  | lo12
  | branch16 | branch21 | branch26 | pcaddi

/-- Number of bytes of the field. -/
def LaUse.width : LaUse → Nat
  | .abs64 | .add64 | .sub64 => 8
  | _ => 4

/-- `new` does with address `x` what the bytes `old` were meant to do. -/
def LaUse.denotes (u : LaUse) (p x : BitVec 64) (old new : List Byte) : Prop :=
  match u with
  | .abs32 => field32 new = some (x.setWidth 32)
  | .abs64 => field64 new = some x
  | .add32 => ∀ v, field32 old = some v → field32 new = some (v + x.setWidth 32)
  | .sub32 => ∀ v, field32 old = some v → field32 new = some (v - x.setWidth 32)
  | .add64 => ∀ v, field64 old = some v → field64 new = some (v + x)
  | .sub64 => ∀ v, field64 old = some v → field64 new = some (v - x)
  | .lo12 => ∀ w, field32 old = some w →
      (field32 new).map laImm12 = some { laImm12 w with imm := x.extractLsb' 0 12 }
  | .branch16 => ∀ op rj rd t, (field32 old).bind (laBranch16 p) = some (op, rj, rd, t) →
      (field32 new).bind (laBranch16 p) = some (op, rj, rd, x)
  | .branch21 => ∀ op rj t, (field32 old).bind (laBranch21 p) = some (op, rj, t) →
      (field32 new).bind (laBranch21 p) = some (op, rj, x)
  | .branch26 => ∀ op t, (field32 old).bind (laBranch26 p) = some (op, t) →
      (field32 new).bind (laBranch26 p) = some (op, x)
  | .pcaddi => ∀ rd v, (field32 old).bind (laPcaddi p) = some (rd, v) →
      (field32 new).bind (laPcaddi p) = some (rd, x)

/-! ### RISC-V -/

/-- `jal rd, imm` (opcode 1101111): `(rd, PC + sign_extend(imm))`, the immediate is scattered as
`imm[20|10:1|11|19:12]` over bits 31..12. -/
def rvJal (pc : BitVec 64) (w : BitVec 32) : Option (BitVec 5 × BitVec 64) :=
  if w.extractLsb' 0 7 = 0b1101111#7 then
    let imm : BitVec 21 := ((w.extractLsb' 31 1).setWidth 21 <<< 20) ||| ((w.extractLsb' 12 8).setWidth 21 <<< 12) |||
      ((w.extractLsb' 20 1).setWidth 21 <<< 11) ||| ((w.extractLsb' 21 10).setWidth 21 <<< 1)
    some (w.extractLsb' 7 5, pc + imm.signExtend 64)
  else none

/-- `lui rd, imm20` (opcode 0110111): `(rd, sign_extend(imm20:000000000000))`. -/
def rvLui (w : BitVec 32) : Option (BitVec 5 × BitVec 64) :=
  if w.extractLsb' 0 7 = 0b0110111#7 then
    some (w.extractLsb' 7 5, ((w.extractLsb' 12 20).setWidth 32 <<< 12).signExtend 64)
  else none

/-- I-type instruction (`addi`, `ld`, `jalr`, ...): everything but the immediate, and the immediate. -/
def rvImmI (w : BitVec 32) : BitVec 20 × BitVec 12 := (w.extractLsb' 0 20, w.extractLsb' 20 12)

/-- S-type instruction (stores): opcode, `funct3`/`rs1`/`rs2`, and the immediate
(`imm[11:5]` in bits 31..25, `imm[4:0]` in bits 11..7). -/
def rvImmS (w : BitVec 32) : BitVec 7 × BitVec 13 × BitVec 12 :=
  (w.extractLsb' 0 7, w.extractLsb' 12 13,
    ((w.extractLsb' 25 7).setWidth 12 <<< 5) ||| (w.extractLsb' 7 5).setWidth 12)

/-- The pair `auipc r, hi; jalr l, lo(r)`: link register and target. -/
def rvCall (pc : BitVec 64) (bs : List Byte) : Option (BitVec 5 × BitVec 64) :=
  match field32 (bs.take 4), field32 (bs.drop 4) with
  | some a, some b =>
    match rvAuipc pc a with
    | some (rd, v) =>
      if b.extractLsb' 0 7 = 0b1100111#7 ∧ b.extractLsb' 12 3 = 0#3 ∧ b.extractLsb' 15 5 = rd then
        some (b.extractLsb' 7 5, (v + (b.extractLsb' 20 12).signExtend 64) &&& ~~~1#64)
      else none
    | none => none
  | _, _ => none

/-- `c.j offset` (bits 15..13 = 101, bits 1..0 = 01): the offset is scattered as
`[11|4|9:8|10|6|7|3:1|5]` over bits 12..2. -/
def rvCJ (pc : BitVec 64) (h : BitVec 16) : Option (BitVec 64) :=
  if h.extractLsb' 13 3 = 0b101#3 ∧ h.extractLsb' 0 2 = 0b01#2 then
    let imm : BitVec 12 := ((h.extractLsb' 12 1).setWidth 12 <<< 11) ||| ((h.extractLsb' 11 1).setWidth 12 <<< 4) |||
      ((h.extractLsb' 9 2).setWidth 12 <<< 8) ||| ((h.extractLsb' 8 1).setWidth 12 <<< 10) |||
      ((h.extractLsb' 7 1).setWidth 12 <<< 6) ||| ((h.extractLsb' 6 1).setWidth 12 <<< 7) |||
      ((h.extractLsb' 3 3).setWidth 12 <<< 1) ||| ((h.extractLsb' 2 1).setWidth 12 <<< 5)
    some (pc + imm.signExtend 64)
  else none

/-- `c.lui rd, imm` (bits 15..13 = 011, bits 1..0 = 01): `(rd, sign_extend(imm[17:12]:000000000000))`. -/
def rvCLui (h : BitVec 16) : Option (BitVec 5 × BitVec 64) :=
  if h.extractLsb' 13 3 = 0b011#3 ∧ h.extractLsb' 0 2 = 0b01#2 then
    let imm : BitVec 18 := ((h.extractLsb' 12 1).setWidth 18 <<< 17) ||| ((h.extractLsb' 2 5).setWidth 18 <<< 12)
    some (h.extractLsb' 7 5, imm.signExtend 64)
  else none

/-- The two bytes of a 16-bit field. -/
def field16 : List Byte → Option (BitVec 16)
  | [b0, b1] => some (b0.setWidth 16 ||| (b1.setWidth 16 <<< 8))
  | _ => none

/-- What a RISC-V relocation is for. -/
inductive RvUse where
  | abs64
  /-- 32-bit datum, sign-extended by its user -/
  | abs32
  /-- 32-bit datum relative to its own place -/
  | rel32
  | jal | call | auipc | lui | immI | immS

/-- Number of bytes of the field. -/
def RvUse.width : RvUse → Nat
  | .abs64 | .call => 8
  | _ => 4

/-- `new` does with address `x`, at `p`, what the bytes `old` were meant to do.  The upper part
(`auipc`, `lui`) is right if adding the sign-extended low 12 bits gives the address. -/
def RvUse.denotes (u : RvUse) (p x : BitVec 64) (old new : List Byte) : Prop :=
  match u with
  | .abs64 => field64 new = some x
  | .abs32 => (field32 new).map (fun w => w.signExtend 64) = some x
  | .rel32 => (field32 new).map (fun w => p + w.signExtend 64) = some x
  | .jal => ∀ rd t, (field32 old).bind (rvJal p) = some (rd, t) → (field32 new).bind (rvJal p) = some (rd, x)
  | .call => ∀ l t, rvCall p old = some (l, t) → rvCall p new = some (l, x)
  | .auipc => ∀ rd v, (field32 old).bind (rvAuipc p) = some (rd, v) →
      ∃ v', (field32 new).bind (rvAuipc p) = some (rd, v') ∧ v' + ((x - p).extractLsb' 0 12).signExtend 64 = x
  | .lui => ∀ rd v, (field32 old).bind rvLui = some (rd, v) →
      ∃ v', (field32 new).bind rvLui = some (rd, v') ∧ v' + (x.extractLsb' 0 12).signExtend 64 = x
  | .immI => ∀ rest i, (field32 old).map rvImmI = some (rest, i) →
      (field32 new).map rvImmI = some (rest, x.extractLsb' 0 12)
  | .immS => ∀ op rest i, (field32 old).map rvImmS = some (op, rest, i) →
      (field32 new).map rvImmS = some (op, rest, x.extractLsb' 0 12)

/-- The address can be expressed. -/
def RvUse.canDenote (u : RvUse) (p x : BitVec 64) : Prop :=
  match u with
  | .jal => (x - p).toNat % 2 = 0 ∧ -(2 ^ 20 : Int) ≤ (x - p).toInt ∧ (x - p).toInt < 2 ^ 20
  | .call => x.toNat % 2 = 0 ∧ -(2 ^ 31 : Int) ≤ (x - p).toInt ∧ (x - p).toInt < 2 ^ 31 - 2 ^ 11
  | .auipc => -(2 ^ 31 : Int) ≤ (x - p).toInt ∧ (x - p).toInt < 2 ^ 31 - 2 ^ 11
  | .lui => -(2 ^ 31 : Int) ≤ x.toInt ∧ x.toInt < 2 ^ 31 - 2 ^ 11
  | _ => True

end Verif.Cpu
