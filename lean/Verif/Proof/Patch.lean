import Verif.Spec.Patch
import Verif.Proof.Hunks
import Verif.Proof.Layout
import Verif.Proof.MemIter
/-
Helper lemmas about `objectApply` and `objectUnapply`.
-/
namespace Verif

theorem isOld_iff (i : Info) : i.isOld ↔ i.isNew = false := by
  simp only [Info.isOld, Info.isNew, Bool.and_eq_false_imp, beq_iff_eq, beq_eq_false_iff_ne]
  omega

theorem Holds.unique {m : Mem} {a : Nat} {bs cs : List Byte} (h1 : Holds m a bs) (h2 : Holds m a cs)
    (hl : bs.length = cs.length) : bs = cs := by
  apply List.ext_getElem hl
  intro k hk hk'
  have := h1 k hk
  rw [h2 k hk'] at this
  simpa using this.symm

theorem Holds.mono {m m' : Mem} {a : Nat} {bs : List Byte} (h : Holds m a bs)
    (he : ∀ k, k < bs.length → m' (a + k) = m (a + k)) : Holds m' a bs := by
  intro k hk
  rw [he k hk]; exact h k hk

theorem parseInfos_length (image : List Byte) (n : Nat) : ∀ off, (parseInfos image off n).length = n := by
  induction n with
  | zero => intro off; rfl
  | succ n ih => intro off; simp [parseInfos, ih]

theorem leVal_zero (bs : List Byte) (h : ∀ b ∈ bs, b = 0) : leVal bs = 0 := by
  induction bs with
  | nil => rfl
  | cons b bs ih =>
    have hb := h b (by simp)
    subst hb
    simp [leVal, ih (fun b hb => h b (by simp [hb]))]

theorem parseInfo_isEnd (bs : List Byte) (h : ∀ k, k < 24 → bs[k]? = some 0) : (parseInfo bs).isEnd = true := by
  have key : ∀ o n, o + n ≤ 24 → leVal ((bs.drop o).take n) = 0 := by
    intro o n hn
    apply leVal_zero
    intro b hb
    obtain ⟨k, hk, rfl⟩ := List.getElem_of_mem hb
    rw [List.length_take, List.length_drop] at hk
    rw [List.getElem_take, List.getElem_drop]
    have := h (o + k) (by omega)
    rw [List.getElem?_eq_getElem (by omega)] at this
    simpa using this
  have h0 := key 0 8 (by omega)
  simp only [List.drop_zero] at h0
  simp [Info.isEnd, parseInfo, h0, key 8 8, key 16 4, key 20 4]

/-- Reading the record table back from the target yields the records of the image. -/
theorem readInfos_spec (m : Mem) (page : Nat) (hpage : 48 ≤ page) (reads : Nat → ReadOutcome)
    (hreads : ∀ k, ∃ lim, page ≤ lim ∧ reads k = .upTo lim) (image : List Byte) (base : Nat)
    (himg : Holds m base image) (hext : Mapped m (base + image.length) 24)
    (hwrap : base + image.length + page < 2 ^ 64) (n : Nat) :
    ∀ (off fuel k : Nat) (it : MemIter), IterOk m page it → n < fuel →
      off + 48 * n + 24 ≤ image.length →
      (∀ i ∈ parseInfos image off n, ¬ (i.daddr = 0 ∧ i.dlen = 0 ∧ i.saddr = 0 ∧ i.slen = 0)) →
      (∀ k, k < 24 → image[off + 48 * n + k]? = some 0) →
      readInfos reads m fuel it k (base + off) = some (parseInfos image off n) := by
  induction n with
  | zero =>
    intro off fuel k it hit hf hoff _ hterm
    obtain ⟨fuel, rfl⟩ : ∃ f, fuel = f + 1 := ⟨fuel - 1, by omega⟩
    obtain ⟨lim, hlim, hr⟩ := hreads k
    have hmap : Mapped m (base + off) 48 := by
      intro j hj
      by_cases h : off + j < image.length
      · have := himg (off + j) h
        rw [Nat.add_assoc, this]; simp
      · have := hext (off + j - image.length) (by omega)
        rwa [show base + image.length + (off + j - image.length) = base + off + j by omega] at this
    obtain ⟨it', bs, hp⟩ := peek_succeeds hit lim 48 (base + off) hlim hmap (by omega) hpage
    obtain ⟨hit', hl, hb⟩ := peek_ok hit lim 48 (base + off) (by omega)
      (by have := hmap 0 (by omega); simpa using this) (by omega) hpage (by omega) hp
    unfold readInfos
    rw [hr, hp]
    simp only
    rw [parseInfo_isEnd, if_pos rfl]
    · rfl
    · intro j hj
      have h1 := hb j (by omega)
      have h2 := himg (off + j) (by omega)
      have h3 := hterm j hj
      simp only [Nat.mul_zero, Nat.add_zero] at h3
      rw [List.getElem?_eq_getElem (by omega)] at h3 ⊢
      simp only [Option.some.injEq] at h3
      rw [Nat.add_assoc, h2, h3] at h1
      simpa using h1.symm
  | succ n ih =>
    intro off fuel k it hit hf hoff hne hterm
    obtain ⟨fuel, rfl⟩ : ∃ f, fuel = f + 1 := ⟨fuel - 1, by omega⟩
    obtain ⟨lim, hlim, hr⟩ := hreads k
    have himg' : Holds m (base + off) ((image.drop off).take 48) := (himg.drop off).take 48
    have hlen : ((image.drop off).take 48).length = 48 := by simp; omega
    have hmap : Mapped m (base + off) 48 := by
      intro j hj
      have := himg' j (by omega)
      rw [this]; simp
    obtain ⟨it', bs, hp⟩ := peek_succeeds hit lim 48 (base + off) hlim hmap (by omega) hpage
    obtain ⟨hit', hl, hb⟩ := peek_ok hit lim 48 (base + off) (by omega)
      (by have := hmap 0 (by omega); simpa using this) (by omega) hpage (by omega) hp
    have hbs : bs = (image.drop off).take 48 := hb.unique himg' (by omega)
    unfold readInfos
    rw [hr, hp]
    simp only [parseInfos] at hne ⊢
    have hend : (parseInfo bs).isEnd = false := by
      have := hne (parseInfo ((image.drop off).take 48)) (by simp)
      rw [← hbs] at this
      simp only [Info.isEnd]
      simp only [Bool.and_eq_false_imp, beq_iff_eq, beq_eq_false_iff_ne, Bool.and_eq_true]
      intro h1 h2
      exact this ⟨h1.1.1, h1.1.2, h1.2, h2⟩
    rw [hend]
    simp only [Bool.false_eq_true, if_false]
    have := ih (off + 48) fuel (k + 1) it' hit' (by omega) (by omega)
      (fun i hi => hne i (by simp [hi]))
      (fun j hj => by
        have := hterm j hj
        rwa [show off + 48 * (n + 1) + j = off + 48 + 48 * n + j by omega] at this)
    rw [show base + off + 48 = base + (off + 48) by omega, this, hbs]
    rfl

/-- What a successful `objectApply` went through. -/
theorem objectApply_ok (a : Arch) (e : ApplyEnv) (ids : List (List Byte)) (file : List Byte) (m : Mem)
    (h : (objectApply a e ids file m).2.2 = true) :
    ∃ (v : ElfView) (kpta : Nat) (image : List Byte) (l : Layout),
      e.view = some v ∧ e.region = some kpta ∧ e.image = some image ∧
      ¬ ids.contains (cstr (kpId file)) = true ∧
      l = layout a e.page v.undef (totalSizeOf (file.take hdrSize)) v.infoOff v.ninfo ∧
      objectApply a e ids file m =
        installPatch a e l v (totalSizeOf (file.take hdrSize)) (storeLayout (file.take hdrSize) l) image kpta
          (mmapFixed m kpta l.totalMem) := by
  unfold objectApply at h ⊢
  by_cases hdup : (!e.dupOk) = true
  · simp [hdup] at h
  rw [if_neg hdup] at h ⊢
  by_cases hid : ids.contains (cstr (kpId file)) = true
  · rw [if_pos hid] at h; simp at h
  rw [if_neg hid] at h ⊢
  cases hv : e.view with
  | none => rw [hv] at h; simp at h
  | some v =>
    rw [hv] at h
    simp only at h ⊢
    by_cases hj : (decide (v.undef ≠ 0) && !e.jtblOk) = true
    · rw [if_pos hj] at h; simp at h
    rw [if_neg hj] at h
    cases hreg : e.region with
    | none => rw [hreg] at h; simp at h
    | some kpta =>
      rw [hreg] at h
      simp only at h ⊢
      by_cases hsp : (!e.splitOk) = true
      · rw [if_pos hsp] at h; simp at h
      rw [if_neg hsp] at h
      cases him : e.image with
      | none => rw [him] at h; simp at h
      | some image =>
        refine ⟨v, kpta, image, _, rfl, rfl, rfl, hid, rfl, ?_⟩
        rw [if_neg hj, if_neg hsp]

/-- What a successful `installPatch` went through. -/
theorem installPatch_ok {a : Arch} {e : ApplyEnv} {l : Layout} {v : ElfView} {ts : Nat}
    {hdr image : List Byte} {kpta : Nat} {m : Mem}
    (h : (installPatch a e l v ts hdr image kpta m).2.2 = true) :
    (writeParts a e l v.undef ts hdr image kpta m).2 = true ∧
    (e.safety (writeParts a e l v.undef ts hdr image kpta m).1).2 = true ∧
    (applyHunks a e.hunk (kpta + l.userUndo) (e.safety (writeParts a e l v.undef ts hdr image kpta m).1).1 0
        (parseInfos image v.infoOff v.ninfo)).2.2 = true ∧
    (installPatch a e l v ts hdr image kpta m).1 =
      (applyHunks a e.hunk (kpta + l.userUndo) (e.safety (writeParts a e l v.undef ts hdr image kpta m).1).1 0
        (parseInfos image v.infoOff v.ninfo)).1 ∧
    (installPatch a e l v ts hdr image kpta m).2.1.kpta = kpta := by
  unfold installPatch at h ⊢
  simp only at h ⊢
  by_cases h1 : (!(writeParts a e l v.undef ts hdr image kpta m).2) = true
  · rw [if_pos h1] at h; simp at h
  rw [if_neg h1] at h ⊢
  by_cases h2 : (!(e.safety (writeParts a e l v.undef ts hdr image kpta m).1).2) = true
  · rw [if_pos h2] at h; simp at h
  rw [if_neg h2] at h ⊢
  simp only [Bool.and_eq_true] at h
  simp only [Bool.not_eq_true', Bool.not_eq_false] at h1 h2
  exact ⟨h1, h2, h.1, rfl, rfl⟩

/-- Memory after the three parts were written. -/
theorem writeParts_ok {a : Arch} {e : ApplyEnv} {l : Layout} {undef ts : Nat}
    {hdr image : List Byte} {kpta : Nat} {m : Mem}
    (h : (writeParts a e l undef ts hdr image kpta m).2 = true) (hh : hdr.length = 504)
    (he : 504 ≤ l.elfOffset) (hts : image.length = ts - hdrSize)
    (hj : ∀ jo, l.jmpOffset = some jo → jo = 504 ∧ 504 + jmpTableSize a undef ≤ l.elfOffset)
    (hfit : l.elfOffset + image.length ≤ l.totalMem) :
    (∀ x, ¬ InRange x kpta l.totalMem → (writeParts a e l undef ts hdr image kpta m).1 x = m x) ∧
    (∀ x, (writeParts a e l undef ts hdr image kpta m).1 x = none ↔ m x = none) ∧
    Holds (writeParts a e l undef ts hdr image kpta m).1 kpta hdr ∧
    Holds (writeParts a e l undef ts hdr image kpta m).1 (kpta + l.elfOffset) image := by
  unfold writeParts at h ⊢
  simp only at h ⊢
  have htake : image.take (ts - hdrSize) = image := by rw [← hts, List.take_length]
  rw [htake] at h ⊢
  generalize hw1 : memWrite e.wImage m (kpta + l.elfOffset) image = w1 at h ⊢
  by_cases h1 : (!w1.2) = true
  · rw [if_pos h1] at h; simp only [Bool.not_eq_true'] at h1; simp [h1] at h
  rw [if_neg h1] at h ⊢
  generalize hw2 : memWrite e.wHdr w1.1 kpta hdr = w2 at h ⊢
  by_cases h2 : (!w2.2) = true
  · rw [if_pos h2] at h; simp only [Bool.not_eq_true'] at h2; simp [h2] at h
  rw [if_neg h2] at h ⊢
  simp only [Bool.not_eq_true', Bool.not_eq_false] at h1 h2
  have f1 := memWrite_frame e.wImage m (kpta + l.elfOffset) image
  have d1 := memWrite_dom e.wImage m (kpta + l.elfOffset) image
  have o1 := memWrite_ok e.wImage m (kpta + l.elfOffset) image
  rw [hw1] at f1 d1 o1
  have f2 := memWrite_frame e.wHdr w1.1 kpta hdr
  have d2 := memWrite_dom e.wHdr w1.1 kpta hdr
  have o2 := memWrite_ok e.wHdr w1.1 kpta hdr
  rw [hw2] at f2 d2 o2
  have a2 : (∀ x, ¬ InRange x kpta l.totalMem → w2.1 x = m x) ∧ (∀ x, w2.1 x = none ↔ m x = none) ∧
      Holds w2.1 kpta hdr ∧ Holds w2.1 (kpta + l.elfOffset) image := by
    refine ⟨?_, ?_, (o2 h2).1, (o1 h1).1.mono ?_⟩
    · intro x hx
      rw [f2 x (by simp only [InRange] at *; omega), f1 x (by simp only [InRange] at *; omega)]
    · intro x; rw [d2, d1]
    · intro k hk
      exact f2 _ (by simp only [InRange] at *; omega)
  cases hjo : l.jmpOffset with
  | none => exact a2
  | some jo =>
    obtain ⟨rfl, hjt⟩ := hj jo hjo
    simp only
    have f3 := memWrite_frame e.wJmp w2.1 (kpta + 504) (e.jmpTable.take (jmpTableSize a undef))
    have d3 := memWrite_dom e.wJmp w2.1 (kpta + 504) (e.jmpTable.take (jmpTableSize a undef))
    have hl : (e.jmpTable.take (jmpTableSize a undef)).length ≤ jmpTableSize a undef := by
      rw [List.length_take]; omega
    refine ⟨?_, ?_, a2.2.2.1.mono ?_, a2.2.2.2.mono ?_⟩
    · intro x hx
      rw [f3 x (by simp only [InRange] at *; omega), a2.1 x hx]
    · intro x; rw [d3, a2.2.1]
    · intro k hk
      exact f3 _ (by simp only [InRange] at *; omega)
    · intro k hk
      exact f3 _ (by simp only [InRange] at *; omega)

end Verif
