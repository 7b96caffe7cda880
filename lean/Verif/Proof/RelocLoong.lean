import Verif.Model.RelocLoong
import Verif.Proof.RelocA64
/- Helper lemmas for the LoongArch relocations (C27). -/
namespace Verif
open Cpu

theorem laInRange_spec {n : Nat} {off : BitVec 64} (h : laInRange n off = true) :
    -(2 ^ n : Int) ≤ off.toInt ∧ off.toInt < 2 ^ n ∧ off.toNat % 4 = 0 := by
  simp only [laInRange, Bool.and_eq_true, decide_eq_true_eq, beq_iff_eq] at h
  refine ⟨h.1.1, h.1.2, ?_⟩
  have h3 : (off &&& 3#64).toNat = off.toNat % 4 := by
    rw [BitVec.toNat_and]; exact Nat.and_two_pow_sub_one_eq_mod off.toNat 2
  rw [h.2] at h3
  simpa using h3.symm

theorem la_reach (v : Nat) (p x : BitVec 64) (y : BitVec v) (hv : 0 < v) (hv2 : v ≤ 64) (hy : y = (x - p).setWidth v)
    (h1 : -(2 ^ (v - 1) : Int) ≤ (x - p).toInt) (h2 : (x - p).toInt < 2 ^ (v - 1)) : p + y.signExtend 64 = x := by
  rw [hy, signExtend_setWidth_of_fits _ hv2 hv h1 h2, BitVec.add_comm, BitVec.sub_add_cancel]

theorem la_b26_ok (w : BitVec 32) (p x t : BitVec 64) (op : BitVec 6) (h : laBranch26 p w = some (op, t))
    (hr : laInRange 27 (x - p) = true) :
    laBranch26 p (laSetI26 w ((x - p).setWidth 32)) = some (op, x) := by
  obtain ⟨h1, h2, h3⟩ := laInRange_spec hr
  unfold laBranch26 at h ⊢
  split at h
  · rename_i hop
    simp only [Option.some.injEq, Prod.mk.injEq] at h
    have e1 : (laSetI26 w ((x - p).setWidth 32)).extractLsb' 26 6 = w.extractLsb' 26 6 := by
      unfold laSetI26; generalize x - p = y; bv_bits []
    rw [e1, if_pos hop]
    simp only [Option.some.injEq, Prod.mk.injEq]
    refine ⟨h.1, la_reach 28 p x _ (by omega) (by omega) ?_ h1 h2⟩
    unfold laSetI26; generalize x - p = y at *
    have hb := low_bits_of_mod4 y h3
    bv_bits [hb, BitVec.getLsbD_sshiftRight, BitVec.getElem_sshiftRight]
  · contradiction

theorem la_b21_ok (w : BitVec 32) (p x t : BitVec 64) (op : BitVec 6) (rj : BitVec 5)
    (h : laBranch21 p w = some (op, rj, t)) (hr : laInRange 22 (x - p) = true) :
    laBranch21 p (laSet1ri21 w ((x - p).setWidth 32)) = some (op, rj, x) := by
  obtain ⟨h1, h2, h3⟩ := laInRange_spec hr
  unfold laBranch21 at h ⊢
  split at h
  · rename_i hop
    simp only [Option.some.injEq, Prod.mk.injEq] at h
    have e1 : (laSet1ri21 w ((x - p).setWidth 32)).extractLsb' 26 6 = w.extractLsb' 26 6 := by
      unfold laSet1ri21; generalize x - p = y; bv_bits []
    have e2 : (laSet1ri21 w ((x - p).setWidth 32)).extractLsb' 5 5 = w.extractLsb' 5 5 := by
      unfold laSet1ri21; generalize x - p = y; bv_bits []
    rw [e1, e2, if_pos hop]
    simp only [Option.some.injEq, Prod.mk.injEq]
    refine ⟨h.1, h.2.1, la_reach 23 p x _ (by omega) (by omega) ?_ h1 h2⟩
    unfold laSet1ri21; generalize x - p = y at *
    have hb := low_bits_of_mod4 y h3
    bv_bits [hb, BitVec.getLsbD_sshiftRight, BitVec.getElem_sshiftRight]
  · contradiction

theorem la_pcaddi_ok (w : BitVec 32) (p x v : BitVec 64) (rd : BitVec 5)
    (h : laPcaddi p w = some (rd, v)) (hr : laInRange 21 (x - p) = true) :
    laPcaddi p (laSetPcrel w ((x - p).setWidth 32)) = some (rd, x) := by
  obtain ⟨h1, h2, h3⟩ := laInRange_spec hr
  unfold laPcaddi at h ⊢
  split at h
  · rename_i hop
    simp only [Option.some.injEq, Prod.mk.injEq] at h
    have e1 : (laSetPcrel w ((x - p).setWidth 32)).extractLsb' 25 7 = w.extractLsb' 25 7 := by
      unfold laSetPcrel; generalize x - p = y; bv_bits []
    have e2 : (laSetPcrel w ((x - p).setWidth 32)).extractLsb' 0 5 = w.extractLsb' 0 5 := by
      unfold laSetPcrel; generalize x - p = y; bv_bits []
    rw [e1, e2, if_pos hop]
    simp only [Option.some.injEq, Prod.mk.injEq]
    refine ⟨h.1, la_reach 22 p x _ (by omega) (by omega) ?_ h1 h2⟩
    unfold laSetPcrel; generalize x - p = y at *
    have hb := low_bits_of_mod4 y h3
    bv_bits [hb]
  · contradiction

theorem la_lo12_ok (w : BitVec 32) (x : BitVec 64) :
    laImm12 (laSet2ri12 w (x.setWidth 32)) = { laImm12 w with imm := x.extractLsb' 0 12 } := by
  unfold laImm12
  have e1 : (laSet2ri12 w (x.setWidth 32)).extractLsb' 22 10 = w.extractLsb' 22 10 := by unfold laSet2ri12; bv_bits []
  have e2 : (laSet2ri12 w (x.setWidth 32)).extractLsb' 0 5 = w.extractLsb' 0 5 := by unfold laSet2ri12; bv_bits []
  have e3 : (laSet2ri12 w (x.setWidth 32)).extractLsb' 5 5 = w.extractLsb' 5 5 := by unfold laSet2ri12; bv_bits []
  have e4 : (laSet2ri12 w (x.setWidth 32)).extractLsb' 10 12 = x.extractLsb' 0 12 := by unfold laSet2ri12; bv_bits []
  rw [e1, e2, e3, e4]

theorem field64_some {bs : List Byte} {w : BitVec 64} (h : field64 bs = some w) : ld64 bs = w := by
  match bs, h with
  | [b0, b1, b2, b3, b4, b5, b6, b7], h => simp only [field64, Option.some.injEq] at h; rw [← h]; rfl

theorem ld64_take (bs : List Byte) : ld64 (bs.take 8) = ld64 bs := by
  unfold ld64
  rw [ld32_take _ 8 (by omega), List.drop_take, ld32_take _ _ (by omega)]

/-- What the code makes of a two-register conditional branch. -/
theorem la_b16_eq (w off : BitVec 32) (p t : BitVec 64) (op : BitVec 6) (rj rd : BitVec 5)
    (h : laBranch16 p w = some (op, rj, rd, t)) :
    laBranch16 p (laSet2ri16 w off) = some (op, rj, rd, p + ((off.setWidth 16).setWidth 18 <<< 2).signExtend 64) := by
  unfold laBranch16 at h ⊢
  split at h
  · rename_i hop
    simp only [Option.some.injEq, Prod.mk.injEq] at h
    have e1 : (laSet2ri16 w off).extractLsb' 26 6 = w.extractLsb' 26 6 := by unfold laSet2ri16; bv_bits []
    have e2 : (laSet2ri16 w off).extractLsb' 5 5 = w.extractLsb' 5 5 := by unfold laSet2ri16; bv_bits []
    have e3 : (laSet2ri16 w off).extractLsb' 0 5 = w.extractLsb' 0 5 := by unfold laSet2ri16; bv_bits []
    have e4 : (laSet2ri16 w off).extractLsb' 10 16 = off.setWidth 16 := by unfold laSet2ri16; bv_bits []
    rw [e1, e2, e3, e4, if_pos hop]
    simp only [Option.some.injEq, Prod.mk.injEq]
    exact ⟨h.1, h.2.1, h.2.2.1, trivial⟩
  · contradiction

/-- The displacement stored by the code for `B16` is right only for a branch to itself. -/
theorem la_b16_wrong (p x : BitVec 64) (hr : laInRange 17 (x - p) = true)
    (h : p + ((((x - p).setWidth 32).setWidth 16).setWidth 18 <<< 2).signExtend 64 = x) : x = p := by
  obtain ⟨h1, h2, h3⟩ := laInRange_spec hr
  have hy : ((((x - p).setWidth 32).setWidth 16).setWidth 18 <<< 2).signExtend 64 = x - p := by
    conv_rhs => rw [← h]
    rw [BitVec.add_comm p, BitVec.add_sub_cancel]
  generalize hd : x - p = d at *
  have ht := congrArg BitVec.toInt hy
  rw [BitVec.toInt_signExtend_of_le (by omega)] at ht
  have hz : d = 0#64 := by
    apply BitVec.eq_of_toNat_eq
    have e : ((((d.setWidth 32).setWidth 16).setWidth 18 <<< 2).toNat) = d.toNat % 65536 * 4 := by
      simp only [BitVec.toNat_shiftLeft, BitVec.toNat_setWidth, Nat.shiftLeft_eq]
      omega
    rw [BitVec.toInt_eq_toNat_cond, e] at ht
    rw [BitVec.toInt_eq_toNat_cond] at h1 h2 ht
    have hl := d.isLt
    generalize d.toNat = n at *
    simp only [BitVec.toNat_ofNat]
    clear hr hy hd e h
    by_cases c : 2 * n < 2 ^ 64
    · rw [if_pos c] at h1 h2 ht
      split at ht <;> omega
    · rw [if_neg c] at h1 h2 ht
      split at ht <;> omega
  rw [hz] at hd
  have : x = x - p + p := by rw [BitVec.sub_add_cancel]
  rw [hd] at this
  simpa using this

end Verif
