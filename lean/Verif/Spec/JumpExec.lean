import Verif.Spec.Reloc
/-
Specification: executing the few instructions jump table entries consist of.  Written from the
architecture manuals.  A memory gives the byte at every mapped address; registers are numbered.
-/
namespace Verif.Cpu

abbrev Memory := BitVec 64 → Option Byte

/-- Little-endian 32-bit load. -/
def word32 (m : Memory) (a : BitVec 64) : Option (BitVec 32) :=
  match m a, m (a + 1#64), m (a + 2#64), m (a + 3#64) with
  | some b0, some b1, some b2, some b3 => some (fetch32 b0 b1 b2 b3)
  | _, _, _, _ => none

/-- Little-endian 64-bit load. -/
def word64 (m : Memory) (a : BitVec 64) : Option (BitVec 64) :=
  match word32 m a, word32 m (a + 4#64) with
  | some lo, some hi => some (lo.setWidth 64 ||| (hi.setWidth 64 <<< 32))
  | _, _ => none

abbrev Regs := BitVec 5 → BitVec 64

def Regs.set (r : Regs) (i : BitVec 5) (v : BitVec 64) : Regs := fun j => if j = i then v else r j

/-- Writing register 0 has no effect (LoongArch, RISC-V). -/
def Regs.set0 (r : Regs) (i : BitVec 5) (v : BitVec 64) : Regs := if i = 0#5 then r else r.set i v

/-- x86-64 `FF 25 disp32`, `jmp qword ptr [rip + disp32]`. -/
def x86Step (m : Memory) (s : BitVec 64 × Regs) : Option (BitVec 64 × Regs) :=
  match m s.1, m (s.1 + 1#64), word32 m (s.1 + 2#64) with
  | some 0xff#8, some 0x25#8, some d =>
    (word64 m (s.1 + 6#64 + d.signExtend 64)).map fun t => (t, s.2)
  | _, _, _ => none

/-- AArch64 `LDR Xt, label` (bits 31..24 = 01011000) and `BR Xn` (1101011000011111000000 Rn 00000). -/
def a64Step (m : Memory) (s : BitVec 64 × Regs) : Option (BitVec 64 × Regs) :=
  match word32 m s.1 with
  | none => none
  | some w =>
    if w.extractLsb' 24 8 = 0b01011000#8 then
      (word64 m (s.1 + ((w.extractLsb' 5 19).setWidth 21 <<< 2).signExtend 64)).map fun v =>
        (s.1 + 4#64, s.2.set (w.extractLsb' 0 5) v)
    else if w.extractLsb' 10 22 = 0b1101011000011111000000#22 ∧ w.extractLsb' 0 5 = 0#5 then
      some (s.2 (w.extractLsb' 5 5), s.2)
    else none

/-- LoongArch `pcaddu12i` (0001110), `ld.d` (0010100011), `jirl` (010011). -/
def loongStep (m : Memory) (s : BitVec 64 × Regs) : Option (BitVec 64 × Regs) :=
  match word32 m s.1 with
  | none => none
  | some w =>
    if w.extractLsb' 25 7 = 0b0001110#7 then
      some (s.1 + 4#64, s.2.set0 (w.extractLsb' 0 5) (s.1 + ((w.extractLsb' 5 20).setWidth 32 <<< 12).signExtend 64))
    else if w.extractLsb' 22 10 = 0b0010100011#10 then
      (word64 m (s.2 (w.extractLsb' 5 5) + (w.extractLsb' 10 12).signExtend 64)).map fun v =>
        (s.1 + 4#64, s.2.set0 (w.extractLsb' 0 5) v)
    else if w.extractLsb' 26 6 = 0b010011#6 then
      some (s.2 (w.extractLsb' 5 5) + ((w.extractLsb' 10 16).setWidth 18 <<< 2).signExtend 64,
        s.2.set0 (w.extractLsb' 0 5) (s.1 + 4#64))
    else none

/-- RISC-V `auipc` (0010111), `ld` (0000011, funct3 3), `jalr` (1100111, funct3 0). -/
def rvStep (m : Memory) (s : BitVec 64 × Regs) : Option (BitVec 64 × Regs) :=
  match word32 m s.1 with
  | none => none
  | some w =>
    if w.extractLsb' 0 7 = 0b0010111#7 then
      some (s.1 + 4#64, s.2.set0 (w.extractLsb' 7 5) (s.1 + ((w.extractLsb' 12 20).setWidth 32 <<< 12).signExtend 64))
    else if w.extractLsb' 0 7 = 0b0000011#7 ∧ w.extractLsb' 12 3 = 3#3 then
      (word64 m (s.2 (w.extractLsb' 15 5) + (w.extractLsb' 20 12).signExtend 64)).map fun v =>
        (s.1 + 4#64, s.2.set0 (w.extractLsb' 7 5) v)
    else if w.extractLsb' 0 7 = 0b1100111#7 ∧ w.extractLsb' 12 3 = 0#3 then
      some ((s.2 (w.extractLsb' 15 5) + (w.extractLsb' 20 12).signExtend 64) &&& ~~~1#64,
        s.2.set0 (w.extractLsb' 7 5) (s.1 + 4#64))
    else none

/-- Executing from `pc` reaches `target` after some instructions, and only the registers in `scratch`
have changed. -/
def Reaches (step : BitVec 64 × Regs → Option (BitVec 64 × Regs)) (scratch : List (BitVec 5))
    (pc target : BitVec 64) : Prop :=
  ∀ regs : Regs, ∃ n regs', (Nat.repeat (fun s : Option (BitVec 64 × Regs) => s.bind step) n (some (pc, regs))) =
      some (target, regs') ∧ ∀ r, r ∉ scratch → regs' r = regs r

end Verif.Cpu
