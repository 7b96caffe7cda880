import Verif.Proof.TargetCase
import Verif.Props.Maps
import Verif.Props.ObjElf
import Verif.Props.BuildId
import Verif.Props.Holes
/-
Lemmas about the steps of `patchProcess`.
-/
namespace Verif

/-! ### The lines of an object -/

theorem mapOk_lt {page : Nat} {lines : List (Nat × Nat)} (M : MapOk page lines) :
    lines.Pairwise fun r s => r.1 < s.1 := by
  refine List.Pairwise.imp_of_mem ?_ M.sorted
  intro r s hr _ h
  have := M.nonempty r hr
  omega

theorem line_index {page : Nat} {lines : List (Nat × Nat)} (M : MapOk page lines) {r : Nat × Nat} (hr : r ∈ lines) :
    lines[lines.findIdx fun q => q.1 == r.1]? = some r := by
  have hlt : lines.findIdx (fun q => q.1 == r.1) < lines.length := List.findIdx_lt_length_of_exists ⟨r, hr, by simp⟩
  rw [List.getElem?_eq_getElem hlt]
  have h1 := List.findIdx_getElem (xs := lines) (p := fun q => q.1 == r.1) (w := hlt)
  simp only [beq_iff_eq] at h1
  obtain ⟨j, hj, hjr⟩ := List.getElem_of_mem hr
  have hs := List.pairwise_iff_getElem.1 (mapOk_lt M)
  congr 1
  rcases Nat.lt_trichotomy (lines.findIdx fun q => q.1 == r.1) j with h | h | h
  · have := hs _ _ hlt hj h
    rw [hjr] at this; omega
  · subst h; exact hjr
  · have := hs _ _ hj hlt h
    rw [hjr] at this; omega

theorem object_lines {page : Nat} {maps : List Mapping} (M : MapOk page (maps.map fun w => (w.start, w.stop))) {o : Obj}
    (hsub : o.vmas.Sublist maps) (hne : o.vmas ≠ []) {prev : Nat}
    (hp : objPrevHole page (maps.map fun w => (w.start, w.stop)) o = some prev) :
    ObjectOfLines page (maps.map fun w => (w.start, w.stop))
      (o.vmas.map fun v => (maps.map fun w => (w.start, w.stop)).findIdx fun r => r.1 == v.start) (objStart o) (objEnd o) prev := by
  generalize hL : (maps.map fun w => (w.start, w.stop)) = lines at *
  have hidx : ∀ v ∈ o.vmas, lines[lines.findIdx fun r => r.1 == v.start]? = some (v.start, v.stop) := by
    intro v hv
    have : (v.start, v.stop) ∈ lines := by
      rw [← hL]; exact List.mem_map.2 ⟨v, hsub.subset hv, rfl⟩
    exact line_index M this
  have hpw : o.vmas.Pairwise fun v w => v.start < w.start := by
    refine List.Pairwise.sublist hsub ?_
    have := mapOk_lt M
    rw [← hL, List.pairwise_map] at this
    exact this
  refine ⟨?_, ?_, ?_, ?_, ?_⟩
  · rw [List.pairwise_map]
    refine List.Pairwise.imp_of_mem ?_ hpw
    intro v w hv hw h
    have e1 := hidx v hv
    have e2 := hidx w hw
    obtain ⟨l1, e1⟩ := List.getElem?_eq_some_iff.1 e1
    obtain ⟨l2, e2⟩ := List.getElem?_eq_some_iff.1 e2
    have hs := List.pairwise_iff_getElem.1 (mapOk_lt M)
    rcases Nat.lt_trichotomy (lines.findIdx fun r => r.1 == v.start) (lines.findIdx fun r => r.1 == w.start) with h' | h' | h'
    · exact h'
    · rw [← Option.some.injEq, ← List.getElem?_eq_getElem l1, h', List.getElem?_eq_getElem l2, e2] at e1
      simp only [Option.some.injEq, Prod.mk.injEq] at e1
      omega
    · have := hs _ _ l2 l1 h'
      rw [e1, e2] at this
      omega
  · intro i hi
    obtain ⟨v, hv, rfl⟩ := List.mem_map.1 hi
    exact (List.getElem?_eq_some_iff.1 (hidx v hv)).1
  · obtain ⟨v, hv⟩ : ∃ v, o.vmas.head? = some v := by
      cases h : o.vmas with
      | nil => exact absurd h hne
      | cons v _ => exact ⟨v, rfl⟩
    refine ⟨_, by rw [List.head?_map, hv]; rfl, ?_⟩
    rw [hidx v (List.mem_of_head? hv), objStart, hv]; rfl
  · obtain ⟨v, hv⟩ : ∃ v, o.vmas.getLast? = some v := ⟨_, List.getLast?_eq_some_getLast hne⟩
    refine ⟨_, by rw [List.getLast?_map, hv]; rfl, ?_⟩
    rw [hidx v (List.mem_of_getLast? hv), objEnd, hv]; rfl
  · unfold objPrevHole at hp
    rw [List.map_map]
    exact hp

theorem object_vma_bounds {page : Nat} {maps : List Mapping} (M : MapOk page (maps.map fun w => (w.start, w.stop))) {o : Obj}
    (hsub : o.vmas.Sublist maps) {v : Mapping} (hv : v ∈ o.vmas) : objStart o ≤ v.start ∧ v.stop ≤ objEnd o := by
  have hpw : o.vmas.Pairwise fun v w => v.stop ≤ w.start := by
    refine List.Pairwise.sublist hsub ?_
    have := M.sorted
    rw [List.pairwise_map] at this
    exact this
  have hn : ∀ w ∈ o.vmas, w.start < w.stop := by
    intro w hw
    exact M.nonempty (w.start, w.stop) (List.mem_map.2 ⟨w, hsub.subset hw, rfl⟩)
  constructor
  · unfold objStart
    cases h : o.vmas with
    | nil => rw [h] at hv; simp at hv
    | cons u l =>
      rw [h] at hv hpw hn
      simp only [List.head?_cons, Option.map_some, Option.getD_some]
      rcases List.mem_cons.1 hv with rfl | hv
      · exact Nat.le_refl _
      · have := (List.pairwise_cons.1 hpw).1 v hv
        have := hn u (by simp)
        omega
  · unfold objEnd
    rcases List.eq_nil_or_concat o.vmas with h | ⟨l, u, h⟩
    · rw [h] at hv; simp at hv
    · rw [h] at hv hpw hn ⊢
      simp only [List.concat_eq_append, List.getLast?_append, List.getLast?_singleton, Option.some_or, Option.map_some, Option.getD_some]
      simp only [List.concat_eq_append] at hv hpw hn
      rcases List.mem_append.1 hv with hv | hv
      · have := (List.pairwise_append.1 hpw).2.2 v hv u (by simp)
        have := hn u (by simp)
        omega
      · simp only [List.mem_singleton] at hv
        subst hv; exact Nat.le_refl _

/-! ### The objects that get the patch -/

theorem applyTargets_skip {a : Arch} {ra : BitVec 64 → RelocArch} {T : TargetEnv} {lines : List (Nat × Nat)}
    {ids : Obj → List (List Byte)} {sel : Obj → Bool} {file : List Byte} {us : List MappedObj} {holes : List Hole} {m : Mem}
    (post : List (Obj × MappedObj)) : ∀ (pre : List (Obj × MappedObj)) (k : Nat), (∀ p ∈ pre, sel p.1 = false) →
    applyTargets a ra T lines ids sel file us k holes m (pre ++ post) =
      applyTargets a ra T lines ids sel file us (k + pre.length) holes m post
  | [], k, _ => rfl
  | (o, u) :: pre, k, h => by
    rw [List.cons_append, applyTargets, if_pos (by rw [h (o, u) (by simp)]; rfl),
      applyTargets_skip post pre (k + 1) (fun p hp => h p (by simp [hp])), List.length_cons]
    congr 1; omega

theorem applyTargets_none {a : Arch} {ra : BitVec 64 → RelocArch} {T : TargetEnv} {lines : List (Nat × Nat)}
    {ids : Obj → List (List Byte)} {sel : Obj → Bool} {file : List Byte} {us : List MappedObj} {holes : List Hole} {m : Mem}
    (pre : List (Obj × MappedObj)) (k : Nat) (h : ∀ p ∈ pre, sel p.1 = false) :
    applyTargets a ra T lines ids sel file us k holes m pre = (m, some 0) := by
  have := applyTargets_skip (a := a) (ra := ra) (T := T) (lines := lines) (ids := ids) (file := file) (us := us) (holes := holes)
    (m := m) [] pre k h
  rw [List.append_nil] at this
  rw [this, applyTargets]

/-! ### The size of the memory -/

theorem roundUp_le (x m : Nat) : roundUp x m ≤ x + m := by
  unfold roundUp
  have := Nat.div_mul_le_self (x + m - 1) m
  omega

theorem countUndefined_le (syms : List PSym) : countUndefined syms ≤ syms.length := by
  unfold countUndefined
  refine Nat.le_trans List.countP_le_length ?_
  simp

theorem patchMemSize_le {a : Arch} {w : Rela Nat → Nat} {abs page : Nat} {file : List Byte} {o : ElfObj} {n : Nat} {img : List Byte}
    {fns : List PatchFn} (F : PatchFileIs w abs file o n img fns) :
    patchMemSize a page file ≤ 3 * page + 24 * o.syms.length + img.length + 8 * fns.length + 700 := by
  obtain ⟨off, hoff, himg⟩ := F.object
  have hoff' : leVal ((file.drop offKpatchOffset).take 4) = off := hoff.ld
  have htot : totalSizeOf (file.take hdrSize) = 504 + img.length := by
    rw [← F.total.ld]
    unfold totalSizeOf ldField
    rw [List.drop_take, List.take_take, Nat.min_eq_left (by simp [hdrSize, offTotalSize])]
    rfl
  have hview : fileView file = some ⟨(o.sec n).offset, (o.sec n).size / 48, countUndefined (o.syms.map (·.2))⟩ := by
    unfold fileView
    dsimp only
    rw [hoff', ← himg, elfLoadInfo_obj F.encoded F.wellFormed F.info, countUndefined_eq F.encoded F.wellFormed]
    rfl
  have hsz := F.replaces.size
  have hn : (o.sec n).size / 48 = fns.length := by omega
  have hu := countUndefined_le (o.syms.map (·.2))
  rw [List.length_map] at hu
  unfold patchMemSize
  rw [hview]
  dsimp only
  rw [htot, hn]
  unfold layout
  dsimp only
  have hj : jmpTableSize a (countUndefined (o.syms.map (·.2))) ≤ 16 + 24 * o.syms.length := by
    unfold jmpTableSize
    have : a.jmpEntrySize ≤ 24 := by cases a <;> decide
    have := Nat.mul_le_mul hu this
    omega
  have h8 : a.hunkSize ≤ 8 := by cases a <;> decide
  have hh : a.hunkSize * fns.length ≤ 8 * fns.length := Nat.mul_le_mul_right _ h8
  have e0 : roundUp hdrSize 8 = 504 := by decide
  rw [e0]
  generalize hs1 : (if countUndefined (o.syms.map (·.2)) ≠ 0 then
    roundUp (504 + jmpTableSize a (countUndefined (o.syms.map (·.2)))) page else 504) = s1
  have b1 : s1 ≤ 504 + 16 + 24 * o.syms.length + page := by
    rw [← hs1]
    split
    · have := roundUp_le (504 + jmpTableSize a (countUndefined (o.syms.map (·.2)))) page
      omega
    · omega
  have b2 := roundUp_le s1 page
  have b3 := roundUp_le (roundUp s1 page + (504 + img.length) - hdrSize) 128
  have b4 := roundUp_le (roundUp (roundUp s1 page + (504 + img.length) - hdrSize) 128 + a.hunkSize * fns.length) 16
  have b5 := roundUp_le (roundUp (roundUp (roundUp s1 page + (504 + img.length) - hdrSize) 128 + a.hunkSize * fns.length) 16) page
  have : hdrSize = 504 := rfl
  omega

end Verif
