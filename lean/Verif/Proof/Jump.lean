import Verif.Proof.Bits
/-
Helper lemmas for the jump encodings (C04-C07).
-/
namespace Verif
open Cpu

theorem udiv4 (x : BitVec 32) : x / 4#32 = x >>> 2 := by
  apply BitVec.eq_of_toNat_eq
  simp [BitVec.toNat_udiv, Nat.shiftRight_eq_div_pow]

theorem low_bits_of_mod4 (x : BitVec 64) (h : x.toNat % 4 = 0) : x[0] = false ∧ x[1] = false := by
  simp only [BitVec.getElem_eq_testBit_toNat, Nat.testBit_eq_decide_div_mod_eq]
  constructor <;> simp <;> omega

/-- Difference of two addresses as a signed number. -/
theorem sub_ofNat_toInt {d s : Nat} (h1 : -(2 ^ 63 : Int) ≤ (s : Int) - d) (h2 : (s : Int) - d < 2 ^ 63) :
    (BitVec.ofNat 64 s - BitVec.ofNat 64 d).toInt = (s : Int) - d := by
  rw [BitVec.toInt_eq_toNat_cond, BitVec.toNat_sub]
  simp only [BitVec.toNat_ofNat]
  split <;> omega

theorem sub_ofNat_mod4 {d s : Nat} (hd4 : d % 4 = 0) (hs4 : s % 4 = 0) :
    (BitVec.ofNat 64 s - BitVec.ofNat 64 d).toNat % 4 = 0 := by
  rw [BitVec.toNat_sub]; simp only [BitVec.toNat_ofNat]; omega

theorem x86_jump (d s : BitVec 64) (h1 : -(2 ^ 31 : Int) ≤ (s - d - 5#64).toInt) (h2 : (s - d - 5#64).toInt < 2 ^ 31) :
    x86Jmp d (x86Code d s) = some s := by
  simp only [x86Code, le32, x86Jmp, fetch32_le32, if_pos, Option.some.injEq]
  rw [signExtend_setWidth_of_fits _ (by omega) (by omega) h1 h2]
  rw [BitVec.sub_sub, BitVec.add_comm, BitVec.sub_add_cancel]

theorem aarch64_jump (d s : BitVec 64) (hs : (s - d).toNat % 4 = 0)
    (h1 : -(2 ^ 27 : Int) ≤ (s - d).toInt) (h2 : (s - d).toInt < 2 ^ 27) :
    aarch64B d (aarch64Code d s) = some s := by
  simp only [aarch64Code, le32, aarch64B, udiv4]
  generalize hx : s - d = x at *
  have hb := low_bits_of_mod4 x hs
  rw [if_pos, Option.some.injEq]
  · have e1 : ∀ y : BitVec 28, y = x.setWidth 28 → d + y.signExtend 64 = s := by
      intro y hy
      rw [hy, signExtend_setWidth_of_fits _ (by omega) (by omega) h1 h2, ← hx, BitVec.add_comm, BitVec.sub_add_cancel]
    apply e1
    bv_bits [fetch32, hb]
  · bv_bits [fetch32]

theorem loong_jump (d s : BitVec 64) (hs : (s - d).toNat % 4 = 0)
    (h1 : -(2 ^ 27 : Int) ≤ (s - d).toInt) (h2 : (s - d).toInt < 2 ^ 27) :
    loongB d (le32 (loongInst (loongImm26 d s))) = some s := by
  simp only [loongInst, loongImm26, le32, loongB, fetch32_le32]
  generalize hx : s - d = x at *
  have hb := low_bits_of_mod4 x hs
  rw [if_pos, Option.some.injEq]
  · have e1 : ∀ y : BitVec 28, y = x.setWidth 28 → d + y.signExtend 64 = s := by
      intro y hy
      rw [hy, signExtend_setWidth_of_fits _ (by omega) (by omega) h1 h2, ← hx, BitVec.add_comm, BitVec.sub_add_cancel]
    apply e1
    bv_bits [hb, BitVec.getLsbD_sshiftRight, BitVec.getElem_sshiftRight]
  · bv_bits [BitVec.getLsbD_sshiftRight, BitVec.getElem_sshiftRight]


/-- bit 11 of an offset, as a correction of 4096 -/
theorem rv_bit11 (x : BitVec 64) :
    ((x &&& 0x800#64) <<< 1).toNat = if x.toNat / 2048 % 2 = 1 then 4096 else 0 := by
  have h : (x &&& 0x800#64) = if x.getLsbD 11 then BitVec.twoPow 64 11 else 0#64 := BitVec.and_twoPow x 11
  rw [h]
  have hb : x.getLsbD 11 = decide (x.toNat / 2048 % 2 = 1) := by
    rw [BitVec.getLsbD, Nat.testBit_eq_decide_div_mod_eq]
  rw [hb]
  by_cases hc : x.toNat / 2048 % 2 = 1 <;> simp [hc]

theorem and_fff (x : BitVec 64) : (x &&& 0xfff#64).toNat = x.toNat % 4096 := by
  rw [BitVec.toNat_and]
  exact Nat.and_two_pow_sub_one_eq_mod x.toNat 12

/-- the sign-extended low 12 bits -/
theorem rv_lo12 (x : BitVec 64) :
    (x.extractLsb' 0 12).signExtend 64 = (x &&& 0xfff#64) - ((x &&& 0x800#64) <<< 1) := by
  apply BitVec.eq_of_toNat_eq
  rw [BitVec.toNat_sub, rv_bit11, and_fff, BitVec.toNat_signExtend]
  have h1 : (x.extractLsb' 0 12).toNat = x.toNat % 4096 := by simp [BitVec.extractLsb'_toNat]
  have h2 : (x.extractLsb' 0 12).msb = decide (x.toNat / 2048 % 2 = 1) := by
    rw [BitVec.msb_eq_decide, h1]
    simp only [decide_eq_decide]; omega
  rw [BitVec.toNat_setWidth, h1, h2]
  by_cases hc : x.toNat / 2048 % 2 = 1 <;> simp [hc] <;> omega

theorem rv_low_same (x : BitVec 64) :
    ((x + ((x &&& 0x800#64) <<< 1)) &&& 0xfff#64) = x &&& 0xfff#64 := by
  apply BitVec.eq_of_toNat_eq
  rw [and_fff, and_fff, BitVec.toNat_add, rv_bit11]
  split <;> omega

theorem and_not_or (z c : BitVec 64) : (z &&& ~~~c) ||| (z &&& c) = z := by
  ext i hi; simp; grind

theorem and_not_and (z c : BitVec 64) : (z &&& ~~~c) &&& (z &&& c) = 0#64 := by
  ext i hi; simp; grind

theorem clear_low12 (z : BitVec 64) : z &&& ~~~0xfff#64 = z - (z &&& 0xfff#64) := by
  have h : (z &&& ~~~0xfff#64) + (z &&& 0xfff#64) = z := by
    rw [BitVec.add_eq_or_of_and_eq_zero]
    · exact and_not_or _ _
    · exact and_not_and _ _
  calc z &&& ~~~0xfff#64 = (z &&& ~~~0xfff#64) + (z &&& 0xfff#64) - (z &&& 0xfff#64) := by
        rw [BitVec.add_sub_cancel]
    _ = _ := by rw [h]

theorem clear_low12_toInt (z : BitVec 64) : (z - (z &&& 0xfff#64)).toInt = z.toInt - z.toInt % 4096 := by
  have := and_fff z
  rw [BitVec.toInt_eq_toNat_cond, BitVec.toInt_eq_toNat_cond, BitVec.toNat_sub, this]
  split <;> split <;> omega

/-- The value `auipc` adds for a U-type immediate whose rounded value fits in 32 bits. -/
theorem rv_hi20 (z : BitVec 64) (h1 : -(2 ^ 31 : Int) ≤ z.toInt) (h2 : z.toInt < 2 ^ 31) :
    (((z &&& 0xfffff000#64).setWidth 32)).signExtend 64 = z - (z &&& 0xfff#64) := by
  have e : (z &&& 0xfffff000#64).setWidth 32 = (z - (z &&& 0xfff#64)).setWidth 32 := by
    rw [← clear_low12]
    bv_bits []
  have t := clear_low12_toInt z
  rw [e, signExtend_setWidth_of_fits _ (by omega) (by omega)] <;> omega

theorem rv_round_toInt (x : BitVec 64) (h1 : -(2 ^ 31 : Int) ≤ x.toInt) (h2 : x.toInt < 2 ^ 31) :
    (x + ((x &&& 0x800#64) <<< 1)).toInt = x.toInt + (if x.toInt / 2048 % 2 = 1 then 4096 else 0) := by
  have := rv_bit11 x
  rw [BitVec.toInt_eq_toNat_cond] at *
  rw [BitVec.toInt_eq_toNat_cond, BitVec.toNat_add, this]
  split at h1 <;> split <;> split <;> omega

/-- auipc + 12-bit low part reconstruct the offset. -/
theorem rv_hi_lo (x : BitVec 64) (h1 : -(2 ^ 31 : Int) ≤ x.toInt) (h2 : x.toInt < 2 ^ 31 - 2048) :
    ((((x + ((x &&& 0x800#64) <<< 1)) &&& 0xfffff000#64).setWidth 32)).signExtend 64 +
      (x.extractLsb' 0 12).signExtend 64 = x := by
  have hr := rv_round_toInt x h1 (by omega)
  rw [rv_hi20, rv_low_same, rv_lo12]
  · generalize (x &&& 0x800#64) <<< 1 = c
    generalize (x &&& 0xfff#64) = l
    rw [BitVec.sub_eq_add_neg, BitVec.sub_eq_add_neg]
    have : x + c + -l + (l + -c) = x + (c + -c) + (l + -l) := by ac_rfl
    rw [this, BitVec.add_right_neg, BitVec.add_right_neg]; simp
  · rw [hr]; split <;> omega
  · rw [hr]; split <;> omega

theorem riscv_jump (d s : BitVec 64) (hs : s.toNat % 2 = 0)
    (h1 : -(2 ^ 31 : Int) ≤ (s - d).toInt) (h2 : (s - d).toInt < 2 ^ 31 - 2048) :
    rvFarJump d (riscvCode d s) = some s := by
  simp only [riscvCode, le32, rvFarJump, List.cons_append, List.nil_append, fetch32_le32]
  rw [signExtend_setWidth_of_fits _ (by omega) (by omega) h1 (by omega)]
  generalize hx : s - d = x at *
  have r := rv_hi_lo x h1 h2
  simp only [rvAuipc]
  rw [if_pos (by unfold rvSetUtypeImm; bv_bits [])]
  simp only [rvJalr]
  rw [if_pos (by
    refine ⟨?_, ?_, ?_, ?_⟩
    · unfold rvSetItypeImm; bv_bits []
    · unfold rvSetItypeImm; bv_bits []
    · unfold rvSetItypeImm; bv_bits []
    · unfold rvSetItypeImm rvSetUtypeImm; bv_bits [])]
  have e1 : BitVec.setWidth 32 (BitVec.extractLsb' 12 20 (rvSetUtypeImm 3991#32 x)) <<< 12 =
      (((x + ((x &&& 0x800#64) <<< 1)) &&& 0xfffff000#64).setWidth 32) := by
    unfold rvSetUtypeImm
    generalize x + ((x &&& 0x800#64) <<< 1) = y
    bv_bits []
  have e2 : BitVec.extractLsb' 20 12 (rvSetItypeImm 1015911#32 x) = x.extractLsb' 0 12 := by
    unfold rvSetItypeImm
    bv_bits []
  rw [e1, e2, BitVec.add_assoc, r, ← hx, BitVec.add_comm, BitVec.sub_add_cancel, Option.some.injEq]
  have h0 : s[0] = false := by
    rw [BitVec.getElem_eq_testBit_toNat, Nat.testBit_eq_decide_div_mod_eq]; simp; omega
  bv_bits [h0]

end Verif
