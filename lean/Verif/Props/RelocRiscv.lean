import Verif.Proof.RelocRiscv
/-
C28: relocations of RISC-V patches make the instructions compute the intended address.
-/
namespace Verif
open Cpu

/-- What the relocation types with an address of their own are for (RISC-V psABI).  The `PCREL_LO12`
types are treated with their partner in `C28_pcrel_pair_partial`; `RVC_JUMP` and `RVC_LUI` in the
violation theorems. -/
def rvUse : RvRel → Option RvUse
  | .r64 => some .abs64
  | .r32 | .set32 => some .abs32
  | .r32Pcrel => some .rel32
  | .jal => some .jal
  | .call | .callPlt => some .call
  | .pcrelHi20 | .tlsGotHi20 => some .auipc
  | .hi20 => some .lui
  | .lo12I => some .immI
  | .lo12S => some .immS
  | _ => none

/-- The address the patch author means: `S + A`, or for a thread-local variable the slot of the
original program at link-time address `A`. -/
def rvWanted (load : BitVec 64) (r : Rela RvRel) (s : Sym) : BitVec 64 :=
  if r.typ = .tlsGotHi20 ∧ s.isUndef = false ∧ s.typ = .tls then load + r.addend else s.value + r.addend

/-- Width of the field of a relocation. -/
def rvWidth (r : Rela RvRel) : Nat :=
  match r.typ with
  | .ignored | .other _ => 0
  | .r64 | .call | .callPlt => 8
  | .rvcJump | .rvcLui => 2
  | _ => 4

theorem ld16_take (bs : List Byte) : ld16 (bs.take 2) = ld16 bs := by
  match bs with
  | [] => rfl
  | [_] => rfl
  | b0 :: b1 :: bs => rfl

theorem rv_local (load : BitVec 64) (sec : RelSec) (syms : List Sym) :
    LocalAct (rvAct load sec syms) (fun r => rvWidth (rvForget r)) where
  reads := by
    intro r s d d' h
    unfold rvWidth at h
    unfold rvAct rvApply
    cases ht : (rvForget r).typ <;> rw [ht] at h <;> dsimp only at h ⊢
    all_goals first
      | rfl
      | (have e : ld32 d = ld32 d' := by rw [← ld32_take d 4 (by omega), h, ld32_take d' 4 (by omega)]
         rw [e])
      | (have e : ld16 d = ld16 d' := by rw [← ld16_take d, h, ld16_take d']
         rw [e])
      | (have e : ld32 d = ld32 d' := by rw [← ld32_take d 8 (by omega), h, ld32_take d' 8 (by omega)]
         have e2 : ld32 (d.drop 4) = ld32 (d'.drop 4) := by
           have := congrArg (List.drop 4) h
           rw [List.drop_take, List.drop_take] at this
           rw [← ld32_take (d.drop 4) 4 (by omega), this, ld32_take _ 4 (by omega)]
         rw [e, e2])
  writes := by
    intro r s d bs h
    unfold rvAct rvApply at h
    unfold rvWidth
    cases ht : (rvForget r).typ <;> rw [ht] at h <;> dsimp only at h ⊢
    all_goals first
      | contradiction
      | (split at h <;> first | contradiction | (simp only [Act.write.injEq] at h; subst h; simp [le32_length, le16]))
      | (simp only [Act.write.injEq] at h; subst h; simp [le64_length, le32_length])

theorem rv_apply_denotes (load : BitVec 64) (sec : RelSec) (syms : List Sym) (done : List (Rela RvRel)) (r : Rela RvRel)
    (s : Sym) (d bs : List Byte) (u : RvUse)
    (hu : rvUse r.typ = some u) (h : rvApply load sec syms done r s (s.value + r.addend) d = .write bs)
    (hc : u.canDenote (sec.addr + BitVec.ofNat 64 r.offset) (rvWanted load r s)) :
    bs.length = u.width ∧
      u.denotes (sec.addr + BitVec.ofNat 64 r.offset) (rvWanted load r s) (d.take u.width) bs := by
  unfold rvApply at h
  dsimp only at h
  generalize sec.addr + BitVec.ofNat 64 r.offset = p at *
  have hld : ld32 (d.take 4) = ld32 d := ld32_take d 4 (by omega)
  cases ht : r.typ <;> rw [ht] at h hu <;>
    simp only [rvUse, reduceCtorEq, Option.some.injEq] at hu <;> subst hu <;> dsimp only at h <;>
    (try simp only [rvWanted, ht, reduceCtorEq, false_and, if_false] at hc ⊢)
  case r64 => cases h; exact ⟨rfl, field64_le64 _⟩
  case r32 | set32 =>
    split at h
    · rename_i hf
      cases h; refine ⟨rfl, ?_⟩
      simp only [rvFits32, beq_iff_eq] at hf
      simp only [RvUse.denotes, field32_le32, Option.map_some, hf]
    · contradiction
  case r32Pcrel =>
    split at h
    · rename_i hf
      cases h; refine ⟨rfl, ?_⟩
      simp only [rvFits32, beq_iff_eq] at hf
      simp only [RvUse.denotes, field32_le32, Option.map_some, hf]
      rw [BitVec.add_comm, BitVec.sub_add_cancel]
    · contradiction
  case jal =>
    split at h
    · contradiction
    · cases h; refine ⟨rfl, ?_⟩
      intro rd t hold
      have := bind_field hold
      simp only [RvUse.width] at this
      rw [hld] at this
      rw [field32_le32, Option.bind_some]
      exact rv_jal_ok _ _ _ _ _ this hc.1 hc.2.1 hc.2.2
  case call | callPlt =>
    split at h
    · cases h; refine ⟨rfl, ?_⟩
      intro l t hold
      have e1 : ld32 (d.take 8) = ld32 d := ld32_take d 8 (by omega)
      have e2 : ld32 ((d.take 8).drop 4) = ld32 (d.drop 4) := by
        rw [List.drop_take, ld32_take _ 4 (by omega)]
      have := rv_call_ok p _ t l (d.take 8) hold hc.1 hc.2.1 hc.2.2
      rw [e1, e2] at this
      exact this
    · contradiction
  case pcrelHi20 =>
    split at h
    · cases h; refine ⟨rfl, ?_⟩
      intro rd v hold
      have := bind_field hold
      simp only [RvUse.width] at this
      rw [hld] at this
      rw [field32_le32, Option.bind_some]
      exact rv_auipc_ok _ _ _ _ _ this hc.1 hc.2
    · contradiction
  case hi20 =>
    split at h
    · cases h; refine ⟨rfl, ?_⟩
      intro rd v hold
      have := bind_field hold
      simp only [RvUse.width] at this
      rw [hld] at this
      rw [field32_le32, Option.bind_some]
      exact rv_lui_ok _ _ _ _ this hc.1 hc.2
    · contradiction
  case tlsGotHi20 =>
    simp only [Act.write.injEq] at h
    subst h
    refine ⟨rfl, ?_⟩
    have hw : (if (!s.isUndef && decide (s.typ = .tls)) = true then r.addend + load else s.value + r.addend) = rvWanted load r s := by
      unfold rvWanted
      simp only [ht, true_and, BitVec.add_comm r.addend load]
      cases s.isUndef <;> by_cases hty : s.typ = .tls <;> simp [hty]
    rw [hw]
    have hw3 : (if True ∧ s.isUndef = false ∧ s.typ = SymType.tls then load + r.addend else s.value + r.addend) =
        rvWanted load r s := by simp only [rvWanted, ht]
    rw [hw3] at hc ⊢
    intro rd v hold
    have := bind_field hold
    simp only [RvUse.width] at this
    rw [hld] at this
    rw [field32_le32, Option.bind_some]
    exact rv_auipc_ok _ _ _ _ _ this hc.1 hc.2
  case lo12I =>
    cases h; refine ⟨rfl, ?_⟩
    intro rest i hold
    cases hf : field32 (d.take RvUse.immI.width) with
    | none => rw [hf] at hold; simp at hold
    | some w =>
      rw [hf] at hold
      have := field32_some hf
      simp only [RvUse.width] at this
      rw [hld] at this
      simp only [Option.map_some, Option.some.injEq, rvImmI, Prod.mk.injEq] at hold
      rw [field32_le32, Option.map_some, rv_immI_ok, this, hold.1]
  case lo12S =>
    cases h; refine ⟨rfl, ?_⟩
    intro op rest i hold
    cases hf : field32 (d.take RvUse.immS.width) with
    | none => rw [hf] at hold; simp at hold
    | some w =>
      rw [hf] at hold
      have := field32_some hf
      simp only [RvUse.width] at this
      rw [hld] at this
      simp only [Option.map_some, Option.some.injEq, rvImmS, Prod.mk.injEq] at hold
      rw [field32_le32, Option.map_some, rv_immS_ok, this, hold.1, hold.2.1]

/-- What the whole loop does, in terms of the original image. -/
theorem rv_loop_spec (load : BitVec 64) (peek : BitVec 64 → Option (BitVec 64)) (jbase : BitVec 64)
    (sec : RelSec) (rs : List (Rela RvRel)) (st : RvState)
    (himg : sec.fileOff + sec.size ≤ st.img.length)
    (hin : ∀ r ∈ rs, r.offset + rvWidth r ≤ sec.size)
    (hdis : rs.Pairwise fun a b => a.offset + rvWidth a ≤ b.offset ∨ b.offset + rvWidth b ≤ a.offset)
    (hslot : ∀ r ∈ rs, rvIsSlot st.syms r = false)
    (hok : (rvRelocate load peek jbase sec rs st).2 = true) :
    let st' := (rvRelocate load peek jbase sec rs st).1
    st'.syms = st.syms ∧ st'.jtab = st.jtab ∧
    (∀ (k : Nat) r, rs[k]? = some r → ∃ bs,
      rvApply load sec st.syms (rs.take k).reverse r (symAt st.syms r.sym) ((symAt st.syms r.sym).value + r.addend)
        (st.img.drop (sec.fileOff + r.offset)) = .write bs ∧
      bytesAt st'.img (sec.fileOff + r.offset) bs.length = bs) ∧
    (∀ k, (∀ r ∈ rs, k < sec.fileOff + r.offset ∨ sec.fileOff + r.offset + rvWidth r ≤ k) →
      st'.img[k]? = st.img[k]?) := by
  unfold rvRelocate at hok ⊢
  rw [rvLoop_eq load peek jbase sec rs [] st hslot] at hok ⊢
  have hmem : ∀ a ∈ rvAnnot [] rs, rvForget a ∈ rs := by
    intro a ha
    have := List.mem_map_of_mem (f := rvForget) ha
    rwa [rvAnnot_forget] at this
  have hpw : (rvAnnot [] rs).Pairwise fun a b =>
      a.offset + rvWidth (rvForget a) ≤ b.offset ∨ b.offset + rvWidth (rvForget b) ≤ a.offset := by
    rw [← rvAnnot_forget rs []] at hdis
    exact (List.pairwise_map.1 hdis)
  obtain ⟨_, h2, h3⟩ := relocLoop_spec (rvAct load sec st.syms) _ (rv_local load sec st.syms) sec st.syms st.img himg
    (rvAnnot [] rs) st.img rfl (fun a ha => hin _ (hmem a ha)) hpw
    (fun a _ d => rvApply_ne_stop _ _ _ _ _ _ _ _) hok
  refine ⟨rfl, rfl, ?_, ?_⟩
  · intro k r hk
    have hk' := rvAnnot_get rs [] k r hk
    rw [List.append_nil] at hk'
    obtain ⟨_, bs, hb1, hb2⟩ := h2 _ (List.mem_of_getElem? hk')
    exact ⟨bs, hb1, hb2⟩
  · intro k hk
    exact h3 k (fun a ha => hk _ (hmem a ha))

/-- C28, partial.  Missing, because the code gets them wrong: `jal` to a target between 1 and 2 MiB ahead
and pairs whose rounded upper part overflows are accepted (`C28_violated_jal`,
`C28_violated_call_rounding`), compressed jumps are not relative (`C28_violated_rvc_jump`), compressed
`lui` does not round (`C28_violated_rvc_lui`), the addend of a pc-relative pair is dropped in its lower
half (`C28_violated_pcrel_addend`), and the slots of library variables move with every use
(`C28_violated_slot_reuse`); a field may overrun its section as on x86-64.  Without these: after a
successful relocation of a section every field makes its instruction or pair use the intended address,
with the same registers, and nothing else has changed. -/
theorem C28_instructions_denote_partial (load : BitVec 64) (peek : BitVec 64 → Option (BitVec 64)) (jbase : BitVec 64)
    (sec : RelSec) (rs : List (Rela RvRel)) (st : RvState)
    (himg : sec.fileOff + sec.size ≤ st.img.length)
    (hin : ∀ r ∈ rs, r.offset + rvWidth r ≤ sec.size)
    (hdis : rs.Pairwise fun a b => a.offset + rvWidth a ≤ b.offset ∨ b.offset + rvWidth b ≤ a.offset)
    (hslot : ∀ r ∈ rs, rvIsSlot st.syms r = false)
    (hok : (rvRelocate load peek jbase sec rs st).2 = true) :
    let st' := (rvRelocate load peek jbase sec rs st).1
    (∀ r ∈ rs, ∀ u, rvUse r.typ = some u →
      let p := sec.addr + BitVec.ofNat 64 r.offset
      let x := rvWanted load r (symAt st.syms r.sym)
      u.canDenote p x →
      u.denotes p x (bytesAt st.img (sec.fileOff + r.offset) u.width) (bytesAt st'.img (sec.fileOff + r.offset) u.width)) ∧
    (∀ k, (∀ r ∈ rs, k < sec.fileOff + r.offset ∨ sec.fileOff + r.offset + rvWidth r ≤ k) →
      st'.img[k]? = st.img[k]?) ∧
    st'.syms = st.syms ∧ st'.jtab = st.jtab := by
  intro st'
  obtain ⟨hs, hj, h2, h3⟩ := rv_loop_spec load peek jbase sec rs st himg hin hdis hslot hok
  refine ⟨?_, h3, hs, hj⟩
  intro r hr u hu p x hc
  obtain ⟨k, hk⟩ := List.getElem?_of_mem hr
  obtain ⟨bs, hb1, hb2⟩ := h2 k r hk
  obtain ⟨hl, hd⟩ := rv_apply_denotes load sec st.syms _ r _ _ bs u hu hb1 hc
  rw [← hl]
  have e : bytesAt st'.img (sec.fileOff + r.offset) bs.length = bs := hb2
  rw [e, hl]
  exact hd

/-- Finding the partner of a `PCREL_LO12` relocation. -/
theorem rvHiValue_found (load : BitVec 64) (syms : List Sym) (v : BitVec 64) (hi : Rela RvRel)
    (hoff : hi.offset = v.toNat) (htyp : hi.typ = .pcrelHi20) :
    ∀ (l : List (Rela RvRel)), hi ∈ l →
      (∀ r ∈ l, r.offset = v.toNat → (r.typ = .pcrelHi20 ∨ r.typ = .tlsGotHi20) → r = hi) →
      rvHiValue load syms v l = (symAt syms hi.sym).value
  | [], h, _ => by simp at h
  | r :: l, h, huniq => by
    unfold rvHiValue
    dsimp only
    by_cases h1 : r.offset = v.toNat ∧ r.typ = .pcrelHi20
    · rw [if_pos h1, huniq r (by simp) h1.1 (Or.inl h1.2)]
    rw [if_neg h1]
    by_cases h2 : r.offset = v.toNat ∧ r.typ = .tlsGotHi20
    · have := huniq r (by simp) h2.1 (Or.inr h2.2)
      subst this
      rw [htyp] at h2
      simp at h2
    rw [if_neg h2]
    rcases List.mem_cons.1 h with rfl | h
    · exact absurd ⟨hoff, htyp⟩ h1
    · exact rvHiValue_found load syms v hi hoff htyp l h (fun x hx => huniq x (by simp [hx]))

/-- C28, pc-relative pairs, partial (the addend must be 0, see `C28_violated_pcrel_addend`): an `auipc`
relocated with `PCREL_HI20` and a later I-type instruction relocated with `PCREL_LO12_I` against the
label of that `auipc` together give the symbol's address. -/
theorem C28_pcrel_pair_partial (load : BitVec 64) (peek : BitVec 64 → Option (BitVec 64)) (jbase : BitVec 64)
    (sec : RelSec) (rs : List (Rela RvRel)) (st : RvState)
    (himg : sec.fileOff + sec.size ≤ st.img.length) (hsz : sec.size < 2 ^ 64)
    (hin : ∀ r ∈ rs, r.offset + rvWidth r ≤ sec.size)
    (hdis : rs.Pairwise fun a b => a.offset + rvWidth a ≤ b.offset ∨ b.offset + rvWidth b ≤ a.offset)
    (hslot : ∀ r ∈ rs, rvIsSlot st.syms r = false)
    (hok : (rvRelocate load peek jbase sec rs st).2 = true)
    (i j : Nat) (hi lo : Rela RvRel) (hij : i < j) (h_i : rs[i]? = some hi) (h_j : rs[j]? = some lo)
    (hti : hi.typ = .pcrelHi20) (htj : lo.typ = .pcrelLo12I) (hadd : hi.addend = 0#64)
    (hlabel : (symAt st.syms lo.sym).value = sec.addr + BitVec.ofNat 64 hi.offset)
    (rd : BitVec 5) (v : BitVec 64) (rest : BitVec 20) (imm : BitVec 12)
    (hold1 : (field32 (bytesAt st.img (sec.fileOff + hi.offset) 4)).bind
      (rvAuipc (sec.addr + BitVec.ofNat 64 hi.offset)) = some (rd, v))
    (hold2 : (field32 (bytesAt st.img (sec.fileOff + lo.offset) 4)).map rvImmI = some (rest, imm))
    (hreach : ((symAt st.syms hi.sym).value - (sec.addr + BitVec.ofNat 64 hi.offset)).toInt < 2 ^ 31 - 2 ^ 11) :
    let st' := (rvRelocate load peek jbase sec rs st).1
    ∃ v' imm', (field32 (bytesAt st'.img (sec.fileOff + hi.offset) 4)).bind
        (rvAuipc (sec.addr + BitVec.ofNat 64 hi.offset)) = some (rd, v') ∧
      (field32 (bytesAt st'.img (sec.fileOff + lo.offset) 4)).map rvImmI = some (rest, imm') ∧
      v' + imm'.signExtend 64 = (symAt st.syms hi.sym).value := by
  intro st'
  obtain ⟨_, _, h2, _⟩ := rv_loop_spec load peek jbase sec rs st himg hin hdis hslot hok
  obtain ⟨b1, ha1, hb1⟩ := h2 i hi h_i
  obtain ⟨b2, ha2, hb2⟩ := h2 j lo h_j
  have hmi : hi ∈ rs := List.mem_of_getElem? h_i
  have hoffi : hi.offset + 4 ≤ sec.size := by
    have := hin hi hmi
    simp only [rvWidth, hti] at this
    exact this
  -- the search finds `hi`
  have hv : ((symAt st.syms lo.sym).value - sec.addr) = BitVec.ofNat 64 hi.offset := by
    rw [hlabel, BitVec.add_comm, BitVec.add_sub_cancel]
  have hfind : rvHiValue load st.syms ((symAt st.syms lo.sym).value - sec.addr) (rs.take j).reverse =
      (symAt st.syms hi.sym).value := by
    rw [hv]
    have hn : (BitVec.ofNat 64 hi.offset).toNat = hi.offset := by
      rw [BitVec.toNat_ofNat]; exact Nat.mod_eq_of_lt (by omega)
    apply rvHiValue_found load st.syms _ hi (by rw [hn]) hti
    · rw [List.mem_reverse]
      rw [List.mem_take_iff_getElem]
      have hlt : i < rs.length := by
        rcases Nat.lt_or_ge i rs.length with h | h
        · exact h
        · rw [List.getElem?_eq_none h] at h_i; simp at h_i
      refine ⟨i, by omega, ?_⟩
      rw [List.getElem?_eq_getElem hlt] at h_i
      exact Option.some.inj h_i
    · intro r hr ho ht
      rw [hn] at ho
      rw [List.mem_reverse] at hr
      have hr' := List.mem_of_mem_take hr
      by_contra hne
      have hw : rvWidth r = 4 := by rcases ht with h | h <;> simp [rvWidth, h]
      have hw2 : rvWidth hi = 4 := by simp [rvWidth, hti]
      have hsym : ∀ a ∈ rs, ∀ b ∈ rs, a ≠ b →
          a.offset + rvWidth a ≤ b.offset ∨ b.offset + rvWidth b ≤ a.offset := by
        intro a ha b hb hab
        obtain ⟨n, hn⟩ := List.getElem?_of_mem ha
        obtain ⟨m, hm⟩ := List.getElem?_of_mem hb
        have hnm : n ≠ m := fun h => by subst h; rw [hn] at hm; exact hab (Option.some.inj hm)
        have hpw := List.pairwise_iff_getElem.1 hdis
        have hnl : n < rs.length := by
          rcases Nat.lt_or_ge n rs.length with h | h
          · exact h
          · rw [List.getElem?_eq_none h] at hn; simp at hn
        have hml : m < rs.length := by
          rcases Nat.lt_or_ge m rs.length with h | h
          · exact h
          · rw [List.getElem?_eq_none h] at hm; simp at hm
        rw [List.getElem?_eq_getElem hnl] at hn
        rw [List.getElem?_eq_getElem hml] at hm
        have e1 := Option.some.inj hn
        have e2 := Option.some.inj hm
        rcases Nat.lt_or_gt_of_ne hnm with h | h
        · have := hpw n m hnl hml h
          rw [e1, e2] at this; exact this
        · have := hpw m n hml hnl h
          rw [e1, e2] at this; exact this.symm
      have := hsym r hr' hi hmi hne
      omega
  unfold rvApply at ha1 ha2
  simp only [hti] at ha1
  simp only [htj, hfind] at ha2
  generalize hp : sec.addr + BitVec.ofNat 64 hi.offset = p at *
  generalize hS : (symAt st.syms hi.sym).value = S at *
  rw [hadd, BitVec.add_zero] at ha1
  split at ha1
  · rename_i hf
    split at ha2
    · contradiction
    · cases ha1
      cases ha2
      rw [le32_length] at hb1 hb2
      have e1 : bytesAt st'.img (sec.fileOff + hi.offset) 4 = _ := hb1
      have e2 : bytesAt st'.img (sec.fileOff + lo.offset) 4 = _ := hb2
      rw [e1, e2, field32_le32, field32_le32, Option.bind_some, Option.map_some]
      have hw1 := bind_field hold1
      unfold bytesAt at hw1
      rw [ld32_take _ 4 (by omega)] at hw1
      obtain ⟨v', hv1, hv2⟩ := rv_auipc_ok _ p S v rd hw1 ((rvFits32_iff _).1 hf).1 (by omega)
      refine ⟨v', (S - p).extractLsb' 0 12, hv1, ?_, hv2⟩
      rw [rv_immI_ok, hlabel]
      cases hf2 : field32 (bytesAt st.img (sec.fileOff + lo.offset) 4) with
      | none => rw [hf2] at hold2; simp at hold2
      | some w =>
        rw [hf2] at hold2
        have := field32_some hf2
        unfold bytesAt at this
        rw [ld32_take _ 4 (by omega)] at this
        simp only [Option.map_some, Option.some.injEq, rvImmI, Prod.mk.injEq] at hold2
        rw [this, hold2.1]
  · contradiction

/-- C28: a 32-bit value or offset that does not fit is refused. -/
theorem C28_out_of_reach_refused (load : BitVec 64) (sec : RelSec) (syms : List Sym) (done : List (Rela RvRel))
    (r : Rela RvRel) (s : Sym) (val : BitVec 64) (data : List Byte)
    (hbad : (r.typ = .r32 ∨ r.typ = .set32 ∨ r.typ = .hi20) ∧ ¬ (-(2 ^ 31 : Int) ≤ val.toInt ∧ val.toInt < 2 ^ 31) ∨
      (r.typ = .r32Pcrel ∨ r.typ = .call ∨ r.typ = .callPlt ∨ r.typ = .pcrelHi20) ∧
        let d := val - (sec.addr + BitVec.ofNat 64 r.offset)
        ¬ (-(2 ^ 31 : Int) ≤ d.toInt ∧ d.toInt < 2 ^ 31)) :
    rvApply load sec syms done r s val data = .fail := by
  unfold rvApply
  rcases hbad with ⟨ht, hb⟩ | ⟨ht, hb⟩
  · rw [← rvFits32_iff] at hb
    rcases ht with h | h | h <;> simp [h, hb]
  · dsimp only at hb
    rw [← rvFits32_iff] at hb
    rcases ht with h | h | h | h <;> simp [h, hb]

/-! Non-vacuity: `auipc a0`/`addi a0, a0` for a variable, a call. -/
namespace ExRv
def sec : RelSec := { fileOff := 4, size := 16, addr := 0x7f0000001000#64 }
def syms : List Sym :=
  [⟨0, 0, 0, .notype, .loc⟩, ⟨0x7f0000002ff8#64, 0, 1, .object, .glob⟩,
   ⟨0x7f0000000208#64, 0x7f1234567890#64, 0, .func, .glob⟩, ⟨0x7f0000001000#64, 0, 1, .notype, .loc⟩]
def rels : List (Rela RvRel) :=
  [⟨0, .pcrelHi20, 1, 0#64⟩, ⟨0, .ignored, 0, 0#64⟩, ⟨4, .pcrelLo12I, 3, 0#64⟩, ⟨8, .callPlt, 2, 0#64⟩]
def st : RvState :=
  { syms := syms, jtab := []
    img := [0, 0, 0, 0] ++ le32 0x00000517#32 ++ le32 0x00050513#32 ++ le32 0x00000097#32 ++ le32 0x000080e7#32 }
def peek : BitVec 64 → Option (BitVec 64) := fun _ => none

theorem ok : (rvRelocate 0#64 peek 0#64 sec rels st).2 = true := by decide
example : sec.fileOff + sec.size ≤ st.img.length ∧ (∀ r ∈ rels, r.offset + rvWidth r ≤ sec.size) ∧
    (rels.Pairwise fun a b => a.offset + rvWidth a ≤ b.offset ∨ b.offset + rvWidth b ≤ a.offset) ∧
    (∀ r ∈ rels, rvIsSlot st.syms r = false) ∧
    (symAt st.syms 3).value = sec.addr + BitVec.ofNat 64 0 := by
  refine ⟨by decide, by simp [rels, rvWidth, sec], by simp [rels, rvWidth], by simp [rels, rvIsSlot, st, syms], by decide⟩
example : rvCall (sec.addr + 8#64) (bytesAt (rvRelocate 0#64 peek 0#64 sec rels st).1.img 12 8) =
    some (1#5, 0x7f0000000208#64) := by decide
end ExRv

/-- C28 is violated: a `jal` to a function 1 MiB ahead is accepted and jumps 1 MiB backwards. -/
theorem C28_violated_jal :
    ∃ (sec : RelSec) (st : RvState) (r : Rela RvRel),
      r.typ = .jal ∧ (rvRelocate 0#64 ExRv.peek 0#64 sec [r] st).2 = true ∧
      rvWanted 0#64 r (symAt st.syms 0) = sec.addr + 0x100000#64 ∧
      (field32 (bytesAt (rvRelocate 0#64 ExRv.peek 0#64 sec [r] st).1.img sec.fileOff 4)).bind (rvJal sec.addr) =
        some (1#5, sec.addr - 0x100000#64) :=
  ⟨{ fileOff := 0, size := 8, addr := 0x200000#64 },
    { syms := [⟨0x300000#64, 0, 1, .func, .glob⟩], jtab := [], img := le32 0x000000ef#32 ++ le32 0#32 },
    ⟨0, .jal, 0, 0#64⟩, rfl, by decide, by decide, by decide⟩

/-- C28 is violated: an `auipc`/`jalr` call to a target `2 ^ 31 - 2 ^ 11` bytes ahead is accepted and
goes 4 GiB below it. -/
theorem C28_violated_call_rounding :
    ∃ (sec : RelSec) (st : RvState) (r : Rela RvRel),
      r.typ = .call ∧ (rvRelocate 0#64 ExRv.peek 0#64 sec [r] st).2 = true ∧
      rvWanted 0#64 r (symAt st.syms 0) = sec.addr + 0x7ffff800#64 ∧
      rvCall sec.addr (bytesAt (rvRelocate 0#64 ExRv.peek 0#64 sec [r] st).1.img sec.fileOff 8) =
        some (1#5, sec.addr + 0x7ffff800#64 - 0x100000000#64) :=
  ⟨{ fileOff := 0, size := 8, addr := 0x200000000#64 },
    { syms := [⟨0x27ffff800#64, 0, 1, .func, .glob⟩], jtab := [], img := le32 0x00000097#32 ++ le32 0x000080e7#32 },
    ⟨0, .call, 0, 0#64⟩, rfl, by decide, by decide, by decide⟩

/-- C28 is violated: a compressed jump gets the absolute address of its target as displacement: here
it should jump to itself and jumps `0x100` ahead. -/
theorem C28_violated_rvc_jump :
    ∃ (sec : RelSec) (st : RvState) (r : Rela RvRel),
      r.typ = .rvcJump ∧ (rvRelocate 0#64 ExRv.peek 0#64 sec [r] st).2 = true ∧
      rvWanted 0#64 r (symAt st.syms 0) = sec.addr ∧
      (field16 (bytesAt (rvRelocate 0#64 ExRv.peek 0#64 sec [r] st).1.img sec.fileOff 2)).bind (rvCJ sec.addr) =
        some (sec.addr + 0x100#64) :=
  ⟨{ fileOff := 0, size := 8, addr := 0x100#64 },
    { syms := [⟨0x100#64, 0, 1, .func, .glob⟩], jtab := [], img := le16 0xa001#16 ++ le16 0x1#16 ++ le32 0#32 },
    ⟨0, .rvcJump, 0, 0#64⟩, rfl, by decide, by decide, by decide⟩

/-- C28 is violated: a compressed `lui` for `0x1800` is not rounded up, so that with the sign-extended
low part the pair gives `0x800`. -/
theorem C28_violated_rvc_lui :
    ∃ (sec : RelSec) (st : RvState) (r : Rela RvRel),
      r.typ = .rvcLui ∧ (rvRelocate 0#64 ExRv.peek 0#64 sec [r] st).2 = true ∧
      rvWanted 0#64 r (symAt st.syms 0) = 0x1800#64 ∧
      ∃ v, (field16 (bytesAt (rvRelocate 0#64 ExRv.peek 0#64 sec [r] st).1.img sec.fileOff 2)).bind rvCLui =
          some (10#5, v) ∧ v + ((0x1800#64).extractLsb' 0 12).signExtend 64 = 0x800#64 :=
  ⟨{ fileOff := 0, size := 8, addr := 0x10000#64 },
    { syms := [⟨0x1800#64, 0, 1, .object, .glob⟩], jtab := [], img := le16 0x6501#16 ++ le16 0x1#16 ++ le32 0#32 },
    ⟨0, .rvcLui, 0, 0#64⟩, rfl, by decide, by decide, 0x1000#64, by decide, by decide⟩

/-- C28 is violated: with a non-zero addend the lower half of a pc-relative pair is computed without
it; the pair gives `S` instead of `S + 8`. -/
theorem C28_violated_pcrel_addend :
    ∃ (sec : RelSec) (st : RvState) (hi lo : Rela RvRel),
      hi.typ = .pcrelHi20 ∧ lo.typ = .pcrelLo12I ∧ (rvRelocate 0#64 ExRv.peek 0#64 sec [hi, lo] st).2 = true ∧
      ∃ v imm rest, (field32 (bytesAt (rvRelocate 0#64 ExRv.peek 0#64 sec [hi, lo] st).1.img sec.fileOff 4)).bind
          (rvAuipc sec.addr) = some (10#5, v) ∧
        (field32 (bytesAt (rvRelocate 0#64 ExRv.peek 0#64 sec [hi, lo] st).1.img (sec.fileOff + 4) 4)).map rvImmI =
          some (rest, imm) ∧
        v + imm.signExtend 64 = (symAt st.syms 1).value ∧
        rvWanted 0#64 hi (symAt st.syms 1) = (symAt st.syms 1).value + 8#64 :=
  ⟨{ fileOff := 0, size := 8, addr := 0x10000#64 },
    { syms := [⟨0x10000#64, 0, 1, .notype, .loc⟩, ⟨0x20010#64, 0, 1, .object, .glob⟩], jtab := []
      img := le32 0x00000517#32 ++ le32 0x00050513#32 },
    ⟨0, .pcrelHi20, 1, 8#64⟩, ⟨4, .pcrelLo12I, 0, 0#64⟩, rfl, rfl, by decide,
    0x20000#64, 0x10#12, 0x50513#20, by decide, by decide, by decide, by decide⟩

/-- C28 is violated: two `lui` of the same library variable.  The first use fills the third word of the
variable's jump table entry (offset 16 + 16 of the table); the second use moves on by another 16 bytes
and overwrites the second word of the next symbol's entry (offset 16 + 24 + 8), that is the jump
instruction of that entry. -/
theorem C28_violated_slot_reuse :
    ∃ (sec : RelSec) (st : RvState) (peek : BitVec 64 → Option (BitVec 64)),
      (rvRelocate 0#64 peek 0x500200#64 sec [⟨0, .hi20, 0, 0#64⟩, ⟨4, .hi20, 0, 0#64⟩] st).2 = true ∧
      (symAt st.syms 0).value = 0x500200#64 + 16#64 ∧
      bytesAt st.jtab (16 + 24 + 8) 4 = le32 0x000f8067#32 ∧
      bytesAt (rvRelocate 0#64 peek 0x500200#64 sec [⟨0, .hi20, 0, 0#64⟩, ⟨4, .hi20, 0, 0#64⟩] st).1.jtab (16 + 24 + 8) 4
        = le32 0x2a#32 :=
  ⟨{ fileOff := 0, size := 8, addr := 0x10000#64 },
    { syms := [⟨0x500210#64, 0x7f1234567890#64, 0, .object, .glob⟩]
      jtab := List.replicate 16 0 ++
        (le32 0x00000f97#32 ++ le32 0x010fbf83#32 ++ le32 0x000f8067#32 ++ le32 0#32 ++ le64 0x7f1234567890#64) ++
        (le32 0x00000f97#32 ++ le32 0x010fbf83#32 ++ le32 0x000f8067#32 ++ le32 0#32 ++ le64 0x7f1234567000#64)
      img := le32 0x00000537#32 ++ le32 0x00000537#32 },
    fun _ => some 0x2a#64, by decide, by decide, by decide, by decide⟩

end Verif
