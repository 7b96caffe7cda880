import Verif.Model.RelocA64
import Verif.Proof.Reloc
/- Helper lemmas for the AArch64 relocations (C26). -/
namespace Verif
open Cpu

theorem field32_some {bs : List Byte} {w : BitVec 32} (h : field32 bs = some w) : ld32 bs = w := by
  match bs, h with
  | [b0, b1, b2, b3], h => simp only [field32, Option.some.injEq] at h; rw [← h]; rfl

theorem ld32_take (bs : List Byte) (n : Nat) (h : 4 ≤ n) : ld32 (bs.take n) = ld32 bs := by
  match bs, n with
  | [], _ => simp
  | [_], n + 1 => simp
  | [_, _], n + 2 => simp
  | [_, _, _], n + 3 => simp
  | b0 :: b1 :: b2 :: b3 :: bs, n + 4 => simp [ld32]

theorem bind_field {α : Type} {bs : List Byte} {f : BitVec 32 → Option α} {a : α}
    (h : (field32 bs).bind f = some a) : f (ld32 bs) = some a := by
  cases hf : field32 bs with
  | none => rw [hf] at h; simp at h
  | some w => rw [hf] at h; rw [field32_some hf]; exact h

theorem page_sub (x p : BitVec 64) (h1 : -(2 ^ 32 : Int) ≤ (page x - page p).toInt)
    (h2 : (page x - page p).toInt < 2 ^ 32) :
    ((((x >>> 12) - (p >>> 12)).setWidth 21).setWidth 33 <<< 12).signExtend 64 = page x - page p := by
  rw [← signExtend_setWidth_of_fits (v := 33) (page x - page p) (by omega) (by omega) h1 h2]
  congr 1
  apply BitVec.eq_of_toNat_eq
  have hx : (page x).toNat = x.toNat - x.toNat % 4096 := by
    unfold page; rw [clear_low12, BitVec.toNat_sub, and_fff]; omega
  have hp : (page p).toNat = p.toNat - p.toNat % 4096 := by
    unfold page; rw [clear_low12, BitVec.toNat_sub, and_fff]; omega
  simp only [BitVec.toNat_shiftLeft, BitVec.toNat_setWidth, BitVec.toNat_sub, BitVec.toNat_ushiftRight,
    Nat.shiftRight_eq_div_pow, Nat.shiftLeft_eq, hx, hp]
  omega

theorem a64_adrp_ok (w : BitVec 32) (p x v : BitVec 64) (rd : BitVec 5) (h : a64Adrp p w = some (rd, v))
    (h1 : -(2 ^ 32 : Int) ≤ (page x - page p).toInt) (h2 : (page x - page p).toInt < 2 ^ 32) :
    a64Adrp p (a64SetAdrp w x p) = some (rd, page x) := by
  unfold a64Adrp at h ⊢
  split at h
  · rename_i hop
    have e1 : (a64SetAdrp w x p).extractLsb' 31 1 = w.extractLsb' 31 1 := by
      unfold a64SetAdrp; generalize x >>> 12 - p >>> 12 = y; bv_bits []
    have e2 : (a64SetAdrp w x p).extractLsb' 24 5 = w.extractLsb' 24 5 := by
      unfold a64SetAdrp; generalize x >>> 12 - p >>> 12 = y; bv_bits []
    have e3 : (a64SetAdrp w x p).extractLsb' 0 5 = w.extractLsb' 0 5 := by
      unfold a64SetAdrp; generalize x >>> 12 - p >>> 12 = y; bv_bits []
    have e4 : ((a64SetAdrp w x p).extractLsb' 5 19).setWidth 21 <<< 2 ||| ((a64SetAdrp w x p).extractLsb' 29 2).setWidth 21
        = (x >>> 12 - p >>> 12).setWidth 21 := by
      unfold a64SetAdrp; generalize x >>> 12 - p >>> 12 = y; bv_bits []
    rw [e1, e2, if_pos hop]
    simp only [e3, e4]
    simp only [Option.some.injEq, Prod.mk.injEq] at h ⊢
    refine ⟨h.1, ?_⟩
    rw [page_sub x p h1 h2, BitVec.add_comm, BitVec.sub_add_cancel]
  · contradiction

theorem a64_add_ok (w : BitVec 32) (x o : BitVec 64) (rd rn : BitVec 5) (h : a64AddImm w = some (rd, rn, o)) :
    a64AddImm (a64SetLo12 w x) = some (rd, rn, low12 x) := by
  unfold a64AddImm at h ⊢
  split at h
  · rename_i hop
    have e1 : (a64SetLo12 w x).extractLsb' 22 10 = w.extractLsb' 22 10 := by unfold a64SetLo12; bv_bits []
    have e2 : (a64SetLo12 w x).extractLsb' 0 5 = w.extractLsb' 0 5 := by unfold a64SetLo12; bv_bits []
    have e3 : (a64SetLo12 w x).extractLsb' 5 5 = w.extractLsb' 5 5 := by unfold a64SetLo12; bv_bits []
    have e4 : ((a64SetLo12 w x).extractLsb' 10 12).setWidth 64 = low12 x := by
      unfold a64SetLo12 low12; bv_bits []
    rw [e1, if_pos hop, e2, e3, e4]
    simp only [Option.some.injEq, Prod.mk.injEq] at h ⊢
    exact ⟨h.1, h.2.1, trivial⟩
  · contradiction

theorem a64_ldrToAdd_ok (w : BitVec 32) (x : BitVec 64) (i : A64Mem) (h : a64LdSt w = some i) :
    a64AddImm (a64SetLo12 (a64LdrToAdd w) x) = some (i.rt, i.rn, low12 x) := by
  unfold a64LdSt at h
  unfold a64AddImm
  split at h
  · simp only [Option.some.injEq] at h
    subst h
    have e1 : (a64SetLo12 (a64LdrToAdd w) x).extractLsb' 22 10 = 0b1001000100#10 := by
      unfold a64SetLo12 a64LdrToAdd; bv_bits []
    have e2 : (a64SetLo12 (a64LdrToAdd w) x).extractLsb' 0 5 = w.extractLsb' 0 5 := by
      unfold a64SetLo12 a64LdrToAdd; bv_bits []
    have e3 : (a64SetLo12 (a64LdrToAdd w) x).extractLsb' 5 5 = w.extractLsb' 5 5 := by
      unfold a64SetLo12 a64LdrToAdd; bv_bits []
    have e4 : ((a64SetLo12 (a64LdrToAdd w) x).extractLsb' 10 12).setWidth 64 = low12 x := by
      unfold a64SetLo12 low12 a64LdrToAdd; bv_bits []
    rw [if_pos e1, e2, e3, e4]
  · contradiction

/-- What the code makes of a load or store, for every access size. -/
theorem a64_ldst_eq (w : BitVec 32) (x : BitVec 64) (i : A64Mem) (h : a64LdSt w = some i) :
    a64LdSt (a64SetLdst w x) = some { i with offset := (low12 x >>> 3) <<< i.size } := by
  unfold a64LdSt at h ⊢
  split at h
  · rename_i hop
    simp only [Option.some.injEq] at h
    subst h
    have e1 : (a64SetLdst w x).extractLsb' 24 6 = w.extractLsb' 24 6 := by unfold a64SetLdst; bv_bits []
    have e2 : (a64SetLdst w x).extractLsb' 0 5 = w.extractLsb' 0 5 := by unfold a64SetLdst; bv_bits []
    have e3 : (a64SetLdst w x).extractLsb' 5 5 = w.extractLsb' 5 5 := by unfold a64SetLdst; bv_bits []
    have e4 : (a64SetLdst w x).extractLsb' 30 2 = w.extractLsb' 30 2 := by unfold a64SetLdst; bv_bits []
    have e5 : (a64SetLdst w x).extractLsb' 22 2 = w.extractLsb' 22 2 := by unfold a64SetLdst; bv_bits []
    have e6 : ((a64SetLdst w x).extractLsb' 10 12).setWidth 64 = low12 x >>> 3 := by
      unfold a64SetLdst low12; bv_bits []
    rw [e1, if_pos hop, e2, e3, e4, e5, e6]
  · contradiction

theorem a64_ldst_ok (w : BitVec 32) (x : BitVec 64) (i : A64Mem) (h : a64LdSt w = some i)
    (h3 : i.size = 3) (hx : x.toNat % 8 = 0) :
    a64LdSt (a64SetLdst w x) = some { i with offset := low12 x } := by
  rw [a64_ldst_eq w x i h, h3]
  congr 2
  apply BitVec.eq_of_toNat_eq
  have := and_fff x
  unfold low12
  show ((x &&& 0xfff#64) >>> 3 <<< 3).toNat = _
  simp only [BitVec.toNat_shiftLeft, BitVec.toNat_ushiftRight, Nat.shiftRight_eq_div_pow, Nat.shiftLeft_eq, this]
  omega

theorem a64_branch_aux (p x : BitVec 64) (y : BitVec 28) (hy : y = (x - p).setWidth 28)
    (h1 : -(2 ^ 27 : Int) ≤ (x - p).toInt) (h2 : (x - p).toInt < 2 ^ 27) : p + y.signExtend 64 = x := by
  rw [hy, signExtend_setWidth_of_fits _ (by omega) (by omega) h1 h2, BitVec.add_comm, BitVec.sub_add_cancel]

theorem a64_call_ok (w : BitVec 32) (p x t : BitVec 64) (l : Bool) (h : a64Branch p w = some (l, t))
    (hp : p.toNat % 4 = 0) (hx : x.toNat % 4 = 0)
    (h1 : -(2 ^ 27 : Int) ≤ (x - p).toInt) (h2 : (x - p).toInt < 2 ^ 27) :
    a64Branch p (a64SetCall26 w x p) = some (l, x) := by
  have hm : (x - p).toNat % 4 = 0 := by rw [BitVec.toNat_sub]; omega
  unfold a64Branch at h ⊢
  split at h
  · rename_i hop
    simp only [Option.some.injEq, Prod.mk.injEq] at h
    have e1 : (a64SetCall26 w x p).extractLsb' 26 5 = w.extractLsb' 26 5 := by
      unfold a64SetCall26; generalize x - p = y; bv_bits []
    have e2 : (a64SetCall26 w x p).getLsbD 31 = w.getLsbD 31 := by
      unfold a64SetCall26; generalize x - p = y; simp
    have e3 : ((a64SetCall26 w x p).extractLsb' 0 26).setWidth 28 <<< 2 = (x - p).setWidth 28 := by
      unfold a64SetCall26; generalize x - p = y at *
      have hb := low_bits_of_mod4 y hm
      bv_bits [hb]
    rw [e1, if_pos hop, e2, h.1, a64_branch_aux p x _ e3 h1 h2]
  · contradiction

theorem a64_jump_ok (w : BitVec 32) (p x t : BitVec 64) (l : Bool) (h : a64Branch p w = some (l, t))
    (hp : p.toNat % 4 = 0) (hx : x.toNat % 4 = 0)
    (h1 : -(2 ^ 27 : Int) ≤ (x - p).toInt) (h2 : (x - p).toInt < 2 ^ 27) :
    a64Branch p (a64SetJump26 w x p) = some (l, x) := by
  have e : a64SetJump26 w x p = a64SetCall26 w x p := by
    have hk : ((x >>> 2 - p >>> 2) &&& 0x03FFFFFF#64) = ((x - p) >>> 2 &&& 0x03FFFFFF#64) := by
      apply BitVec.eq_of_toNat_eq
      have hm : ∀ z : BitVec 64, (z &&& 0x03FFFFFF#64).toNat = z.toNat % 2 ^ 26 := by
        intro z; rw [BitVec.toNat_and]; exact Nat.and_two_pow_sub_one_eq_mod z.toNat 26
      rw [hm, hm]
      simp only [BitVec.toNat_sub, BitVec.toNat_ushiftRight, Nat.shiftRight_eq_div_pow]
      omega
    unfold a64SetJump26 a64SetCall26
    rw [hk]
    rfl
  rw [e]
  exact a64_call_ok w p x t l h hp hx h1 h2

end Verif
