import Verif.Model.RelocRiscv
import Verif.Proof.RelocLoong
/- Helper lemmas for the RISC-V relocations (C28). -/
namespace Verif
open Cpu

/-- A relocation together with the ones before it. -/
abbrev RvAnn := RvRel × List (Rela RvRel)

/-- Annotate every relocation with the ones before it, nearest first. -/
def rvAnnot : List (Rela RvRel) → List (Rela RvRel) → List (Rela RvAnn)
  | _, [] => []
  | done, r :: rs => ⟨r.offset, (r.typ, done), r.sym, r.addend⟩ :: rvAnnot (r :: done) rs

/-- Forget the annotation. -/
def rvForget (r : Rela RvAnn) : Rela RvRel := ⟨r.offset, r.typ.1, r.sym, r.addend⟩

theorem rvAnnot_forget : ∀ (rs done : List (Rela RvRel)), (rvAnnot done rs).map rvForget = rs
  | [], _ => rfl
  | r :: rs, done => by simp [rvAnnot, rvForget, rvAnnot_forget rs]

theorem rvAnnot_get : ∀ (rs done : List (Rela RvRel)) (k : Nat) (r : Rela RvRel), rs[k]? = some r →
    (rvAnnot done rs)[k]? = some ⟨r.offset, (r.typ, (rs.take k).reverse ++ done), r.sym, r.addend⟩
  | [], _, k, r, h => by simp at h
  | x :: rs, done, 0, r, h => by simp at h; subst h; simp [rvAnnot]
  | x :: rs, done, k + 1, r, h => by
    simp at h
    simp only [rvAnnot, List.getElem?_cons_succ]
    rw [rvAnnot_get rs (x :: done) k r h]
    simp

/-- The relocations for which `adjust_got_jump_table` changes the symbol and the jump table. -/
def rvIsSlot (syms : List Sym) (r : Rela RvRel) : Bool :=
  (symAt syms r.sym).isUndef && (symAt syms r.sym).typ == .object &&
    (r.typ == .hi20 || r.typ == .tlsGotHi20 || r.typ == .rvcLui)

/-- The body of the loop for relocations that are not of that kind. -/
def rvAct (load : BitVec 64) (sec : RelSec) (syms : List Sym) (r : Rela RvAnn) (s : Sym) (data : List Byte) : Act :=
  rvApply load sec syms r.typ.2 (rvForget r) s (s.value + r.addend) data

theorem rvApply_ne_stop (load : BitVec 64) (sec : RelSec) (syms : List Sym) (done : List (Rela RvRel)) (r : Rela RvRel)
    (s : Sym) (val : BitVec 64) (data : List Byte) : rvApply load sec syms done r s val data ≠ .stop := by
  unfold rvApply
  cases r.typ <;> dsimp only <;> repeat' split
  all_goals simp

theorem rvAdjust_noslot (peek : BitVec 64 → Option (BitVec 64)) (jbase : BitVec 64) (st : RvState) (r : Rela RvRel)
    (h : rvIsSlot st.syms r = false) : rvAdjust peek jbase st r = some (st, false) := by
  unfold rvAdjust
  unfold rvIsSlot symAt at h
  dsimp only
  rw [if_pos]
  simp only [Bool.and_eq_false_iff, Bool.or_eq_false_iff, beq_eq_false_iff_ne, ne_eq] at h
  simp only [Bool.or_eq_true, Bool.not_eq_true', decide_eq_true_eq, Bool.and_eq_true, ne_eq]
  tauto

theorem rvLoop_eq (load : BitVec 64) (peek : BitVec 64 → Option (BitVec 64)) (jbase : BitVec 64) (sec : RelSec) :
    ∀ (rs done : List (Rela RvRel)) (st : RvState), (∀ r ∈ rs, rvIsSlot st.syms r = false) →
      rvLoop load peek jbase sec done rs st =
        ({ st with img := (relocLoop (rvAct load sec st.syms) sec st.syms (rvAnnot done rs) st.img).1 },
          (relocLoop (rvAct load sec st.syms) sec st.syms (rvAnnot done rs) st.img).2)
  | [], _, st, _ => rfl
  | r :: rs, done, st, h => by
    simp only [rvLoop, rvAnnot, relocLoop]
    by_cases hge : r.offset ≥ sec.size
    · rw [if_pos hge, if_pos hge]
    rw [if_neg hge, if_neg hge, rvAdjust_noslot _ _ _ _ (h r (by simp))]
    simp only [Bool.false_eq_true, if_false, rvAct, rvForget]
    have hns := rvApply_ne_stop load sec st.syms done r (st.syms.getD r.sym ⟨0, 0, 0, .notype, .loc⟩)
      ((st.syms.getD r.sym ⟨0, 0, 0, .notype, .loc⟩).value + r.addend) (st.img.drop (sec.fileOff + r.offset))
    cases hact : rvApply load sec st.syms done r (st.syms.getD r.sym ⟨0, 0, 0, .notype, .loc⟩)
      ((st.syms.getD r.sym ⟨0, 0, 0, .notype, .loc⟩).value + r.addend) (st.img.drop (sec.fileOff + r.offset)) with
    | fail => rfl
    | stop => exact absurd hact hns
    | write bs =>
      simp only []
      rw [rvLoop_eq load peek jbase sec rs (r :: done)
        { syms := st.syms, jtab := st.jtab, img := pokeAt st.img (sec.fileOff + r.offset) bs }
        (fun x hx => h x (by simp [hx]))]

theorem rvFits32_iff (v : BitVec 64) : rvFits32 v = true ↔ -(2 ^ 31 : Int) ≤ v.toInt ∧ v.toInt < 2 ^ 31 := by
  constructor
  · intro h
    simp only [rvFits32, beq_iff_eq] at h
    have := congrArg BitVec.toInt h
    rw [BitVec.toInt_signExtend_of_le (by omega)] at this
    have h1 := BitVec.toInt_lt (x := v.setWidth 32)
    have h2 := BitVec.le_toInt (x := v.setWidth 32)
    omega
  · intro h
    simp only [rvFits32, beq_iff_eq]
    exact signExtend_setWidth_of_fits v (by omega) (by omega) h.1 h.2

theorem rv_even_bit (x : BitVec 64) (h : x.toNat % 2 = 0) : x[0] = false := by
  rw [BitVec.getElem_eq_testBit_toNat, Nat.testBit_eq_decide_div_mod_eq]; simp; omega

theorem rv_jal_ok (w : BitVec 32) (p x t : BitVec 64) (rd : BitVec 5) (h : rvJal p w = some (rd, t))
    (he : (x - p).toNat % 2 = 0)
    (h1 : -(2 ^ 20 : Int) ≤ (x - p).toInt) (h2 : (x - p).toInt < 2 ^ 20) :
    rvJal p (rvSetJtypeImm w (x - p)) = some (rd, x) := by
  unfold rvJal at h ⊢
  split at h
  · rename_i hop
    simp only [Option.some.injEq, Prod.mk.injEq] at h
    have e1 : (rvSetJtypeImm w (x - p)).extractLsb' 0 7 = w.extractLsb' 0 7 := by
      unfold rvSetJtypeImm; generalize x - p = y; bv_bits []
    have e2 : (rvSetJtypeImm w (x - p)).extractLsb' 7 5 = w.extractLsb' 7 5 := by
      unfold rvSetJtypeImm; generalize x - p = y; bv_bits []
    rw [e1, e2, if_pos hop]
    simp only [Option.some.injEq, Prod.mk.injEq]
    refine ⟨h.1, la_reach 21 p x _ (by omega) (by omega) ?_ h1 h2⟩
    unfold rvSetJtypeImm; generalize x - p = y at *
    have hb := rv_even_bit y he
    bv_bits [hb]
  · contradiction

/-- The value a U-type instruction with the rounded immediate adds. -/
theorem rv_utype_imm (w : BitVec 32) (y : BitVec 64) :
    (((rvSetUtypeImm w y).extractLsb' 12 20).setWidth 32 <<< 12) =
      (((y + ((y &&& 0x800#64) <<< 1)) &&& 0xfffff000#64).setWidth 32) := by
  unfold rvSetUtypeImm
  generalize y + ((y &&& 0x800#64) <<< 1) = z
  bv_bits []

theorem rv_utype_low (w : BitVec 32) (y : BitVec 64) :
    (rvSetUtypeImm w y).extractLsb' 0 7 = w.extractLsb' 0 7 ∧
    (rvSetUtypeImm w y).extractLsb' 7 5 = w.extractLsb' 7 5 := by
  unfold rvSetUtypeImm
  generalize y + ((y &&& 0x800#64) <<< 1) = z
  constructor <;> bv_bits []

theorem rv_auipc_ok (w : BitVec 32) (p x v : BitVec 64) (rd : BitVec 5) (h : rvAuipc p w = some (rd, v))
    (h1 : -(2 ^ 31 : Int) ≤ (x - p).toInt) (h2 : (x - p).toInt < 2 ^ 31 - 2 ^ 11) :
    ∃ v', rvAuipc p (rvSetUtypeImm w (x - p)) = some (rd, v') ∧
      v' + ((x - p).extractLsb' 0 12).signExtend 64 = x := by
  unfold rvAuipc at h ⊢
  split at h
  · rename_i hop
    simp only [Option.some.injEq, Prod.mk.injEq] at h
    rw [(rv_utype_low w (x - p)).1, (rv_utype_low w (x - p)).2, if_pos hop, rv_utype_imm]
    refine ⟨_, by rw [h.1], ?_⟩
    rw [BitVec.add_assoc, rv_hi_lo (x - p) h1 (by omega), BitVec.add_comm, BitVec.sub_add_cancel]
  · contradiction

theorem rv_lui_ok (w : BitVec 32) (x v : BitVec 64) (rd : BitVec 5) (h : rvLui w = some (rd, v))
    (h1 : -(2 ^ 31 : Int) ≤ x.toInt) (h2 : x.toInt < 2 ^ 31 - 2 ^ 11) :
    ∃ v', rvLui (rvSetUtypeImm w x) = some (rd, v') ∧ v' + (x.extractLsb' 0 12).signExtend 64 = x := by
  unfold rvLui at h ⊢
  split at h
  · rename_i hop
    simp only [Option.some.injEq, Prod.mk.injEq] at h
    rw [(rv_utype_low w x).1, (rv_utype_low w x).2, if_pos hop, rv_utype_imm]
    refine ⟨_, by rw [h.1], ?_⟩
    rw [rv_hi_lo x h1 (by omega)]
  · contradiction

theorem rv_immI_ok (w : BitVec 32) (x : BitVec 64) :
    rvImmI (rvSetItypeImm w x) = (w.extractLsb' 0 20, x.extractLsb' 0 12) := by
  unfold rvImmI rvSetItypeImm
  rw [Prod.mk.injEq]
  constructor <;> bv_bits []

theorem rv_immS_ok (w : BitVec 32) (x : BitVec 64) :
    rvImmS (rvSetStypeImm w x) = (w.extractLsb' 0 7, w.extractLsb' 12 13, x.extractLsb' 0 12) := by
  unfold rvImmS rvSetStypeImm
  rw [Prod.mk.injEq, Prod.mk.injEq]
  refine ⟨?_, ?_, ?_⟩ <;> bv_bits []

theorem rv_call_ok (p x t : BitVec 64) (l : BitVec 5) (old : List Byte) (hold : rvCall p old = some (l, t))
    (hx : x.toNat % 2 = 0)
    (h1 : -(2 ^ 31 : Int) ≤ (x - p).toInt) (h2 : (x - p).toInt < 2 ^ 31 - 2 ^ 11) :
    rvCall p (le32 (rvSetUtypeImm (ld32 old) (x - p)) ++ le32 (rvSetItypeImm (ld32 (old.drop 4)) (x - p))) =
      some (l, x) := by
  unfold rvCall at hold ⊢
  have t1 : (le32 (rvSetUtypeImm (ld32 old) (x - p)) ++ le32 (rvSetItypeImm (ld32 (old.drop 4)) (x - p))).take 4 =
      le32 (rvSetUtypeImm (ld32 old) (x - p)) := rfl
  have t2 : (le32 (rvSetUtypeImm (ld32 old) (x - p)) ++ le32 (rvSetItypeImm (ld32 (old.drop 4)) (x - p))).drop 4 =
      le32 (rvSetItypeImm (ld32 (old.drop 4)) (x - p)) := rfl
  rw [t1, t2, field32_le32, field32_le32]
  cases ha : field32 (old.take 4) with
  | none => rw [ha] at hold; simp at hold
  | some a =>
    cases hb : field32 (old.drop 4) with
    | none => rw [ha, hb] at hold; simp at hold
    | some b =>
      rw [ha, hb] at hold
      simp only [] at hold ⊢
      have ha' := field32_some ha
      rw [ld32_take _ 4 (by omega)] at ha'
      have hb' := field32_some hb
      rw [ha', hb']
      cases hau : rvAuipc p a with
      | none => rw [hau] at hold; simp at hold
      | some q =>
        obtain ⟨rd, v⟩ := q
        rw [hau] at hold
        simp only [] at hold
        obtain ⟨v', hv1, hv2⟩ := rv_auipc_ok a p x v rd hau h1 h2
        rw [hv1]
        simp only []
        split at hold
        · rename_i hop
          simp only [Option.some.injEq, Prod.mk.injEq] at hold
          have e1 : (rvSetItypeImm b (x - p)).extractLsb' 0 7 = b.extractLsb' 0 7 := by
            unfold rvSetItypeImm; generalize x - p = y; bv_bits []
          have e2 : (rvSetItypeImm b (x - p)).extractLsb' 12 3 = b.extractLsb' 12 3 := by
            unfold rvSetItypeImm; generalize x - p = y; bv_bits []
          have e3 : (rvSetItypeImm b (x - p)).extractLsb' 15 5 = b.extractLsb' 15 5 := by
            unfold rvSetItypeImm; generalize x - p = y; bv_bits []
          have e4 : (rvSetItypeImm b (x - p)).extractLsb' 7 5 = b.extractLsb' 7 5 := by
            unfold rvSetItypeImm; generalize x - p = y; bv_bits []
          have e5 : (rvSetItypeImm b (x - p)).extractLsb' 20 12 = (x - p).extractLsb' 0 12 := by
            unfold rvSetItypeImm; generalize x - p = y; bv_bits []
          rw [e1, e2, e3, e4, e5, if_pos hop, hv2, hold.1]
          simp only [Option.some.injEq, Prod.mk.injEq, true_and]
          have h0 := rv_even_bit x hx
          bv_bits [h0]
        · contradiction

end Verif
