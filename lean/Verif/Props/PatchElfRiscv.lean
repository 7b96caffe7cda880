import Verif.Props.PatchElf
import Verif.Props.RelocRiscv
/-
C79 for RISC-V.
-/
namespace Verif
open Cpu

theorem rv_numbers : ∀ p ∈ rvNumbers, rvRelOf p.1 = p.2 := by decide

theorem rv_fieldSize (r : Rela Nat) : rvWidth (r.decode rvRelOf) = rvFieldSize r := by
  unfold rvFieldSize rvWidth Rela.decode
  dsimp only
  generalize hx : rvRelOf r.typ = t
  unfold rvRelOf at hx
  split at hx <;> subst hx <;> simp_all

theorem rv_localElf (load : BitVec 64) (sec : RelSec) (e : List (Rela Nat × Sym)) : LocalAct (rvActElf load sec e) rvFieldSize :=
  LocalAct.decode (f := fun n => (rvRelOf n, e.mapIdx fun j (x : Rela Nat × Sym) => ({ x.1.decode rvRelOf with sym := j } : Rela RvRel)))
    (rv_local load sec (e.map (fun x : Rela Nat × Sym => x.2))) rv_fieldSize

/-- The relocation is for the slot of a variable of a library (see C28): an upper half against an undefined object. -/
def RvSlot (r : Rela Nat) (s : Sym) : Prop := (s.shndx = 0 ∨ 0xff00 ≤ s.shndx) ∧ s.typ = .object ∧ r.typ ∈ [21, 26, 46]

theorem rvSlotElf_iff (r : Rela Nat) (s : Sym) : rvSlotElf r s = true ↔ RvSlot r s := by
  unfold rvSlotElf RvSlot Sym.isUndef
  generalize hx : rvRelOf r.typ = t
  unfold rvRelOf at hx
  split at hx <;> subst hx <;> simp_all

theorem rv_simple (peek : BitVec 64 → Option (BitVec 64)) (load : BitVec 64) (r : Rela Nat) (s : Sym) (h : ¬ RvSlot r s) :
    (rvRelocArch peek load).Simple r s := by
  refine ⟨fun sec e d => rvApply_ne_stop _ _ _ _ _ _ _ _, ?_⟩
  show rvSlotElf r s = false
  rw [← rvSlotElf_iff] at h
  simpa using h

/-- What the lower half of a pc-relative pair is. -/
def rvPairUse : RvRel → Option RvUse
  | .pcrelLo12I => some .immI
  | .pcrelLo12S => some .immS
  | _ => none

/-- The upper half of a pc-relative pair: an ordinary one without addend, or the one of a thread-local variable of the
original program. -/
def rvPairUpper (r : Rela Nat) (s : Sym) : Prop :=
  r.typ = 23 ∧ r.addend = 0#64 ∨ r.typ = 21 ∧ (s.shndx ≠ 0 ∧ s.shndx < 0xff00) ∧ s.typ = .tls

theorem rv_known (t : Nat) (h : ∀ k, rvRelOf t ≠ .other k) :
    t ∈ [0, 16, 29, 30, 31, 32, 35, 36, 39, 40, 44, 47, 48, 49, 50, 51] ∨ ∃ ty, (t, ty) ∈ rvNumbers := by
  generalize hx : rvRelOf t = ty at h
  have hm : ∀ k y, (k, y) ∈ rvNumbers → k = t → ∃ ty, (t, ty) ∈ rvNumbers := fun k y h1 h2 => ⟨y, h2 ▸ h1⟩
  unfold rvRelOf at hx
  split at hx
  all_goals first
    | exact Or.inl (by decide)
    | exact Or.inr ⟨_, by unfold rvNumbers; simp; rfl⟩
    | exact absurd hx.symm (h _)

/-- The relocated fields of the object denote the intended addresses, RISC-V. -/
structure RvRelocated (pe : PrepEnv) (o : ElfObj) (img : List Byte) (base : Nat) (syms : List Sym) (m' : Mem) : Prop where
  known : ∀ i, o.isRela i → ∀ r ∈ o.rels i,
    r.typ ∈ [0, 16, 29, 30, 31, 32, 35, 36, 39, 40, 44, 47, 48, 49, 50, 51] ∨ ∃ ty, (r.typ, ty) ∈ rvNumbers
  fields : ∀ i, o.isRela i → ∀ r ∈ o.rels i, ∀ ty u, (r.typ, ty) ∈ rvNumbers → rvUse ty = some u →
    let p := base + o.place i r
    let x := rvWanted pe.load ⟨r.offset, ty, r.sym, r.addend⟩ (symAt syms r.sym)
    u.canDenote (BitVec.ofNat 64 p) x →
    ∃ bs, bs.length = u.width ∧ Holds m' p bs ∧ u.denotes (BitVec.ofNat 64 p) x (bytesAt img (o.place i r) u.width) bs
  /-- the lower half has the low bits of the distance of the upper half, the one its label stands at, to its address; `fields`
  says that adding these to the value of the upper half gives the address -/
  pairs : ∀ i, o.isRela i → ∀ (j k : Nat) hi lo, (o.rels i)[j]? = some hi → (o.rels i)[k]? = some lo → j < k →
    ∀ ty ty' u, (hi.typ, ty) ∈ rvNumbers → (lo.typ, ty') ∈ rvNumbers → rvPairUpper hi (symAt syms hi.sym) → rvPairUse ty' = some u →
    let p := BitVec.ofNat 64 (base + o.place i hi)
    let x := rvWanted pe.load ⟨hi.offset, ty, hi.sym, hi.addend⟩ (symAt syms hi.sym)
    (symAt syms lo.sym).value = p →
    ∃ bs, bs.length = 4 ∧ Holds m' (base + o.place i lo) bs ∧ u.denotes p (x - p) (bytesAt img (o.place i lo) 4) bs

theorem rvHiValue_unique (load : BitVec 64) (syms : List Sym) (v : BitVec 64) (hi : Rela RvRel)
    (hoff : hi.offset = v.toNat) (htyp : hi.typ = .pcrelHi20 ∨ hi.typ = .tlsGotHi20) :
    ∀ (l : List (Rela RvRel)), hi ∈ l →
      (∀ r ∈ l, r.offset = v.toNat → (r.typ = .pcrelHi20 ∨ r.typ = .tlsGotHi20) → r = hi) →
      rvHiValue load syms v l = if hi.typ = .pcrelHi20 then (symAt syms hi.sym).value
        else if (symAt syms hi.sym).isUndef then (symAt syms hi.sym).value else hi.addend + load
  | [], h, _ => by simp at h
  | r :: l, h, huniq => by
    unfold rvHiValue
    dsimp only
    by_cases h1 : r.offset = v.toNat ∧ r.typ = .pcrelHi20
    · have := huniq r (by simp) h1.1 (Or.inl h1.2)
      subst this
      rw [if_pos h1, if_pos h1.2]
    rw [if_neg h1]
    by_cases h2 : r.offset = v.toNat ∧ r.typ = .tlsGotHi20
    · have := huniq r (by simp) h2.1 (Or.inr h2.2)
      subst this
      rw [if_pos h2, if_neg (fun h => h1 ⟨hoff, h⟩)]
    rw [if_neg h2]
    rcases List.mem_cons.1 h with rfl | h
    · rcases htyp with ht | ht
      · exact absurd ⟨hoff, ht⟩ h1
      · exact absurd ⟨hoff, ht⟩ h2
    · exact rvHiValue_unique load syms v hi hoff htyp l h (fun x hx => huniq x (by simp [hx]))

/-- The search for the upper half among the relocations before finds the one at the offset. -/
theorem rvHiValue_before {o : ElfObj} {n : Nat} (W : o.WellFormed rvFieldSize n) {i : Nat} (hi : o.isRela i) {j k : Nat} {r : Rela Nat}
    (hj : (o.rels i)[j]? = some r) (hjk : j < k) (hk : k ≤ (o.rels i).length) (htyp : r.typ = 23 ∨ r.typ = 21) (load : BitVec 64)
    (syms : List Sym) (v : BitVec 64) (hv : r.offset = v.toNat) :
    rvHiValue load ((o.before syms i k).map (·.2)) v ((o.before syms i k).mapIdx fun j x => { x.1.decode rvRelOf with sym := j }) =
      if r.typ = 23 then (symAt syms r.sym).value
        else if (symAt syms r.sym).isUndef then (symAt syms r.sym).value else r.addend + load := by
  have hjl : j < (o.rels i).length := by omega
  have hr : (o.rels i)[j] = r := by rw [List.getElem?_eq_getElem hjl] at hj; exact Option.some.inj hj
  have hlen : (o.before syms i k).length = k := by simp [ElfObj.before]; omega
  have hget : ∀ a (ha : a < (o.before syms i k).length), (o.before syms i k)[a] =
      ((o.rels i)[k - 1 - a]'(by omega), symAt syms ((o.rels i)[k - 1 - a]'(by omega)).sym) := by
    intro a ha
    have hm : min k (o.rels i).length = k := by omega
    simp [ElfObj.before, symAt, hm]
  have e : k - 1 - (k - 1 - j) = j := by omega
  have h1 : ∀ t, rvRelOf t = .pcrelHi20 ∨ rvRelOf t = .tlsGotHi20 → t = 23 ∨ t = 21 := by
    intro t
    generalize hx : rvRelOf t = ty
    unfold rvRelOf at hx
    split at hx <;> subst hx <;> simp
  have key := rvHiValue_unique load ((o.before syms i k).map (·.2)) v { r.decode rvRelOf with sym := k - 1 - j } hv
    (by rcases htyp with h | h <;> simp only [Rela.decode, h] <;> simp [rvRelOf])
    ((o.before syms i k).mapIdx fun j x => { x.1.decode rvRelOf with sym := j })
    (by
      rw [List.mem_mapIdx]
      refine ⟨k - 1 - j, by omega, ?_⟩
      rw [hget]
      simp only [e, hr])
    (by
      intro q hq ho ht
      rw [List.mem_mapIdx] at hq
      obtain ⟨a, ha, hq⟩ := hq
      rw [hget] at hq
      subst hq
      simp only [Rela.decode] at ho ht
      have ht := h1 _ ht
      rw [hlen] at ha
      have hsz : ∀ z : Rela Nat, z.typ = 23 ∨ z.typ = 21 → rvFieldSize z = 4 := by
        intro z hz
        rcases hz with h | h <;> simp [rvFieldSize, h]
      have hpw := List.pairwise_iff_getElem.1 (W.relApart i hi)
      have w1 := hsz _ ht
      have w2 := hsz _ htyp
      have hdec : k - 1 - a = j := by
        rcases Nat.lt_trichotomy (k - 1 - a) j with h | h | h
        · have := hpw (k - 1 - a) j (by omega) hjl h
          rw [hr] at this
          omega
        · exact h
        · have := hpw j (k - 1 - a) hjl (by omega) h
          rw [hr] at this
          omega
      have ea : a = k - 1 - j := by omega
      subst ea
      simp only [e, hr])
  rw [key]
  have hs : symAt ((o.before syms i k).map (·.2)) (k - 1 - j) = symAt syms r.sym := by
    unfold symAt
    rw [List.getD_eq_getElem?_getD, List.getElem?_map, List.getElem?_eq_getElem (by omega), hget]
    simp only [e, hr, Option.map_some, Option.getD_some, symAt]
  simp only [hs, Rela.decode]
  rcases htyp with h | h <;> rw [h] <;> simp [rvRelOf]

/-- C79 for RISC-V.  Partial: no slot of a variable of a library, which moves with every use (`C28_violated_slot_reuse`); a jump
over 1 MiB or at the end of the reach is accepted (`C28_violated_jal`, `C28_violated_call_rounding`), so the addresses have to be in
reach (`canDenote`); compressed jumps and `lui` are not described (`C28_violated_rvc_jump`, `C28_violated_rvc_lui`); an upper half of
a pair has no addend (`C28_violated_pcrel_addend`); and the types of `RvRelocated.known` without a use are accepted without doing
anything. -/
theorem C79_riscv_partial {peek : BitVec 64 → Option (BitVec 64)} {pe : PrepEnv} {e : ApplyEnv} {ids : List (List Byte)} {file : List Byte}
    {m : Mem} {o : ElfObj} {n : Nat} {img : List Byte} {v : ElfView} {kpta : Nat} {image : List Byte} {l : Layout}
    (C : LoadCase .riscv64 (rvRelocArch peek pe.load) pe e file m o rvFieldSize n img v kpta image l)
    (hslot : ∀ i, o.isRela i → ∀ r ∈ o.rels i, ∀ s, o.syms[r.sym]? = some s → ¬ RvSlot r s.2.sym)
    (h : (objectApplyFile .riscv64 (rvRelocArch peek pe.load) pe e ids file m).2.2 = true) :
    let m' := (objectApplyFile .riscv64 (rvRelocArch peek pe.load) pe e ids file m).1
    let base := kpta + l.elfOffset
    ∃ syms, ObjectInMemory .riscv64 pe o rvFieldSize img base syms m' ∧ RvRelocated pe o img base syms m' ∧
      (∀ i j, o.isRela i → (o.sec i).info = n → j < (o.sec n).size / 48 → ∀ r1 ∈ o.rels i, ∀ r2 ∈ o.rels i,
        r1.typ = 2 → r1.offset = 48 * j → r2.typ = 2 → r2.offset = 48 * j + 8 →
        let d := (symAt syms r1.sym).value + r1.addend
        let s := (symAt syms r2.sym).value + r2.addend
        d ≠ 0#64 → s.toNat % 2 = 0 → -(2 ^ 31 : Int) ≤ (s - d).toInt → (s - d).toInt < 2 ^ 31 - 2048 →
        ∃ bs, bs.length = 8 ∧ Holds m' d.toNat bs ∧ rvFarJump d bs = some s) := by
  intro m' base
  obtain ⟨syms, L⟩ := load_case C (rv_localElf pe.load)
    (by
      intro i hi r hr p s hp e1 e2 e3
      have := hslot i hi r hr p hp
      unfold RvSlot at this
      rw [e1, e2] at this
      exact rv_simple peek pe.load r s this) h
  have W := C.wellFormed
  have F : ∀ i, o.isRela i → ∀ r ∈ o.rels i, ∀ ty u, (r.typ, ty) ∈ rvNumbers → rvUse ty = some u →
      u.canDenote (BitVec.ofNat 64 (base + o.place i r)) (rvWanted pe.load ⟨r.offset, ty, r.sym, r.addend⟩ (symAt syms r.sym)) →
      ∃ bs, bs.length = u.width ∧ bytesAt image (o.place i r) bs.length = bs ∧
        u.denotes (BitVec.ofNat 64 (base + o.place i r)) (rvWanted pe.load ⟨r.offset, ty, r.sym, r.addend⟩ (symAt syms r.sym))
          (bytesAt img (o.place i r) u.width) bs := by
    intro i hi r hr ty u ht hu hc
    obtain ⟨e', bs, b1, b2⟩ := L.prep.field i hi r hr
    have hty : rvRelOf r.typ = ty := rv_numbers _ ht
    have hd : r.decode rvRelOf = ⟨r.offset, ty, r.sym, r.addend⟩ := by rw [Rela.decode, hty]
    have b1' : rvActElf pe.load (o.relSec (BitVec.ofNat 64 base) pe.load i) e' r (symAt syms r.sym)
        (img.drop (o.place i r)) = .write bs := b1
    unfold rvActElf at b1'
    rw [hd] at b1'
    have hp := place_addr W hi base pe.load r
    rw [← hp] at hc ⊢
    obtain ⟨d1, d2⟩ := rv_apply_denotes _ _ _ _ ⟨r.offset, ty, r.sym, r.addend⟩ _ _ _ u hu b1' hc
    exact ⟨bs, d1, b2, d2⟩
  refine ⟨syms, object_in_memory W L, ⟨?_, ?_, ?_⟩, ?_⟩
  · intro i hi r hr
    obtain ⟨e', bs, b1, -⟩ := L.prep.field i hi r hr
    have b1' : rvActElf pe.load (o.relSec (BitVec.ofNat 64 base) pe.load i) e' r (symAt syms r.sym)
        (img.drop (o.place i r)) = .write bs := b1
    have hn : ∀ k, (r.decode rvRelOf).typ ≠ .other k := by
      intro k hk
      unfold rvActElf rvApply at b1'
      dsimp only at b1'
      rw [hk] at b1'
      simp at b1'
    exact rv_known _ hn
  · intro i hi r hr ty u ht hu p x hc
    obtain ⟨bs, d1, d2, d3⟩ := F i hi r hr ty u ht hu hc
    exact ⟨bs, d1, L.holds.sub _ d2, d3⟩
  · intro i hi j k rh rl hj hk hjk ty ty' u ht ht' hup hu p x hlab
    obtain ⟨bs, b1, b2⟩ := L.prep.fields i hi k rl hk
    have hkl : k < (o.rels i).length := by
      rcases Nat.lt_or_ge k (o.rels i).length with h | h
      · exact h
      · rw [List.getElem?_eq_none h] at hk; simp at hk
    have b1' : rvActElf pe.load (o.relSec (BitVec.ofNat 64 base) pe.load i) (o.before syms i k) rl (symAt syms rl.sym)
        (img.drop (o.place i rl)) = .write bs := b1
    have hty : rvRelOf rl.typ = ty' := rv_numbers _ ht'
    have hp := place_addr W hi base pe.load rh
    have htyp : rh.typ = 23 ∨ rh.typ = 21 := by
      rcases hup with h | h
      · exact Or.inl h.1
      · exact Or.inr h.1
    have hofs : rh.offset < 2 ^ 64 := by
      have e1 := W.relFits i hi rh (List.mem_of_getElem? hj)
      have e2 := C.encoded.rels i hi j rh hj
      have e3 := e2.2.1
      exact e3
    have hv : ((symAt syms rl.sym).value - (o.relSec (BitVec.ofNat 64 base) pe.load i).addr) = BitVec.ofNat 64 rh.offset := by
      rw [hlab]
      show BitVec.ofNat 64 (base + o.place i rh) - _ = _
      rw [← hp, BitVec.add_comm, BitVec.add_sub_cancel]
    have hf := rvHiValue_before W hi hj hjk (by omega) htyp pe.load syms
      ((symAt syms rl.sym).value - (o.relSec (BitVec.ofNat 64 base) pe.load i).addr) (by
        rw [hv, BitVec.toNat_ofNat, Nat.mod_eq_of_lt hofs])
    have hx : (if rh.typ = 23 then (symAt syms rh.sym).value
        else if (symAt syms rh.sym).isUndef then (symAt syms rh.sym).value else rh.addend + pe.load) = x := by
      have hty : rvRelOf rh.typ = ty := rv_numbers _ ht
      subst hty
      show _ = rvWanted pe.load ⟨rh.offset, rvRelOf rh.typ, rh.sym, rh.addend⟩ (symAt syms rh.sym)
      unfold rvWanted
      rcases hup with ⟨h1, h2⟩ | ⟨h1, h2, h3⟩
      · simp [h1, h2, rvRelOf]
      · have hu : (symAt syms rh.sym).isUndef = false := by
          unfold Sym.isUndef
          simp only [Bool.or_eq_false_iff, beq_eq_false_iff_ne, decide_eq_false_iff_not]
          omega
        rw [hu, h1, h3]
        simp [rvRelOf, BitVec.add_comm]
    rw [hx] at hf
    have hld : ld32 (bytesAt img (o.place i rl) 4) = ld32 (img.drop (o.place i rl)) := ld32_take _ 4 (by omega)
    unfold rvActElf at b1'
    unfold rvApply at b1'
    simp only [hf] at b1'
    have hdt : (rl.decode rvRelOf).typ = ty' := hty
    simp only [hdt] at b1'
    cases ty' <;> simp only [rvPairUse, reduceCtorEq, Option.some.injEq] at hu <;> subst hu <;> dsimp only at b1' <;>
      split at b1' <;> (try contradiction) <;> simp only [Act.write.injEq] at b1' <;> subst b1' <;>
      refine ⟨_, le32_length _, L.holds.sub _ b2, ?_⟩ <;> rw [hlab]
    · intro rest imm hold
      cases hf : field32 (bytesAt img (o.place i rl) 4) with
      | none => rw [hf] at hold; simp at hold
      | some w =>
        rw [hf] at hold
        have := field32_some hf
        rw [hld] at this
        simp only [Option.map_some, Option.some.injEq, rvImmI, Prod.mk.injEq] at hold
        rw [field32_le32, Option.map_some, rv_immI_ok, this, hold.1]
    · intro op rest imm hold
      cases hf : field32 (bytesAt img (o.place i rl) 4) with
      | none => rw [hf] at hold; simp at hold
      | some w =>
        rw [hf] at hold
        have := field32_some hf
        rw [hld] at this
        simp only [Option.map_some, Option.some.injEq, rvImmS, Prod.mk.injEq] at hold
        rw [field32_le32, Option.map_some, rv_immS_ok, this, hold.1, hold.2.1]
  · intro i j hi hin hj r1 hr1 r2 hr2 t1 o1 t2 o2 d s hd h2 hre1 hre2
    have hN : ∀ r : Rela Nat, r.typ = 2 → (r.typ, RvRel.r64) ∈ rvNumbers := by
      intro r hr; rw [hr]; decide
    have f1 := F i hi r1 hr1 .r64 .abs64 (hN r1 t1) rfl trivial
    have f2 := F i hi r2 hr2 .r64 .abs64 (hN r2 t2) rfl trivial
    obtain ⟨code, c1, c2⟩ := record_jump L hin hj o1 o2 hd f1 f2
    refine ⟨code, hunkCode_length _ _ _ _ c1, c2, ?_⟩
    have c1 : Arch.riscv64.hunkCode d s = some code := c1
    clear_value d s
    simp only [Arch.hunkCode, Option.some.injEq] at c1
    subst c1
    exact riscv_jump d s h2 hre1 hre2

end Verif
