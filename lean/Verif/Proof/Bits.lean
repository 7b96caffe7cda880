import Verif.Model.Arch
import Verif.Spec.Cpu
import Mathlib.Tactic.IntervalCases
/- Generic bit-vector lemmas used by the encoding proofs. -/
namespace Verif
open Cpu


/-- Decide an equality of bit vectors of known width bit by bit. -/
macro "bv_bits" "[" ts:Lean.Parser.Tactic.simpLemma,* "]" : tactic => `(tactic| (
  apply BitVec.eq_of_getLsbD_eq
  intro i hi
  interval_cases i <;>
    simp [BitVec.getLsbD_or, BitVec.getLsbD_and, BitVec.getLsbD_shiftLeft, BitVec.getLsbD_setWidth,
      BitVec.getLsbD_extractLsb', BitVec.getLsbD_ushiftRight, $ts,*]))

theorem fetch32_le32 (w : BitVec 32) :
    fetch32 (w.extractLsb' 0 8) (w.extractLsb' 8 8) (w.extractLsb' 16 8) (w.extractLsb' 24 8) = w := by
  unfold fetch32
  bv_bits []

/-- Truncating to `v` bits and sign-extending again is the identity on values that fit. -/
theorem signExtend_setWidth_of_fits {v w : Nat} (x : BitVec w) (hv : v ≤ w) (hv0 : 0 < v)
    (h1 : -(2 ^ (v - 1) : Int) ≤ x.toInt) (h2 : x.toInt < 2 ^ (v - 1)) :
    (x.setWidth v).signExtend w = x := by
  apply BitVec.eq_of_toInt_eq
  rw [BitVec.toInt_signExtend, BitVec.toInt_setWidth]
  have hd : 2 ^ v ∣ 2 ^ w := Nat.pow_dvd_pow 2 hv
  have e : (x.toNat : Int).bmod (2 ^ v) = x.toInt.bmod (2 ^ v) := by
    rw [BitVec.toInt_eq_toNat_bmod]
    exact (Int.bmod_bmod_of_dvd hd).symm
  have hmin : min w v = v := by omega
  have h2v : (2 : Int) ^ v = 2 * 2 ^ (v - 1) := by
    obtain ⟨k, rfl⟩ : ∃ k, v = k + 1 := ⟨v - 1, by omega⟩
    simp [Int.pow_succ]; omega
  have hr : x.toInt.bmod (2 ^ v) = x.toInt := by
    apply Int.bmod_eq_of_le
    · simp; omega
    · simp; omega
  rw [hmin, e, hr, hr]

/-- The sign extension of the low `v` bits of `x` is a value `y` congruent to `x`. -/
theorem toInt_signExtend_setWidth {v w : Nat} (x : BitVec w) (hv : v ≤ w) :
    ((x.setWidth v).signExtend w).toInt = x.toInt.bmod (2 ^ v) := by
  rw [BitVec.toInt_signExtend, BitVec.toInt_setWidth]
  have hd : 2 ^ v ∣ 2 ^ w := Nat.pow_dvd_pow 2 hv
  have e : (x.toNat : Int).bmod (2 ^ v) = x.toInt.bmod (2 ^ v) := by
    rw [BitVec.toInt_eq_toNat_bmod]
    exact (Int.bmod_bmod_of_dvd hd).symm
  have hmin : min w v = v := by omega
  rw [hmin, e, Int.bmod_bmod]

theorem le32_length (w : BitVec 32) : (le32 w).length = 4 := rfl

end Verif
