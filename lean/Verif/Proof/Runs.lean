import Verif.Proof.Hunks
import Verif.Proof.Restore
import Verif.Spec.Applied
/-
When the steps of `object_apply_patch` succeed: used to run concrete examples.
-/
namespace Verif

theorem mapped_write {lim : Nat} {m : Mem} {d : Nat} {bs : List Byte} {a n : Nat} (h : Mapped m a n) :
    Mapped (memWrite lim m d bs).1 a n := fun k hk hc => h k hk ((memWrite_dom lim m d bs _).1 hc)

theorem hunk_runs {a : Arch} {f : HunkFault} {m : Mem} {undo n : Nat} {i : Info} {code : List Byte} (hn : i.isNew = false)
    (hal : a.alignOk i.daddr = true) (h1 : a.hunkSize ≤ f.rlim) (h2 : a.hunkSize ≤ f.wlim)
    (hu : Mapped m (undo + n * a.hunkSize) a.hunkSize) (hd : Mapped m i.daddr a.hunkSize)
    (hc : a.hunkCode (BitVec.ofNat 64 i.daddr) (BitVec.ofNat 64 i.saddr) = some code) (h3 : code.length ≤ f.clim)
    (h4 : code.length ≤ a.hunkSize) : (applyHunk a f m undo n i).2.2 = true := by
  obtain ⟨bs, e, hl, _⟩ := memRead_full (lim := f.rlim) h1 hd
  have w := memWrite_full (lim := f.wlim) (bs := bs) (dst := undo + n * a.hunkSize) (by omega) (by rw [hl]; exact hu)
  unfold applyHunk memCpy
  rw [hn, hal, e]
  simp only [w, hc, Bool.false_eq_true, if_false, Bool.not_true]
  exact memWrite_full h3 (mapped_write fun k hk => hd k (by omega))

theorem install_runs {a : Arch} {e : ApplyEnv} {l : Layout} {v : ElfView} {ts : Nat} {hd im : List Byte} {kpta : Nat} {m mw : Mem}
    {is : List Info} (hw : writeParts a e l v.undef ts hd im kpta m = (mw, true)) (hi : parseInfos im v.infoOff v.ninfo = is)
    (hs : e.safety = fun m => (m, true)) (hp : e.mprotectOk = true) {undo : Nat} (hu : kpta + l.userUndo = undo)
    {fs : Nat → HunkFault} (hf : e.hunk = fs) :
    (installPatch a e l v ts hd im kpta m).1 = (applyHunks a fs undo mw 0 is).1 ∧
    (installPatch a e l v ts hd im kpta m).2.2 = (applyHunks a fs undo mw 0 is).2.2 := by
  subst hu hf hi
  unfold installPatch
  simp only [hw, hs, hp, Bool.not_true, Bool.false_eq_true, if_false, Bool.and_true, and_self]

theorem hunks_run {a : Arch} {fs : Nat → HunkFault} {undo : Nat} : ∀ {is : List Info} {m : Mem} {n : Nat},
    (∀ k, a.hunkSize ≤ (fs k).rlim ∧ a.hunkSize ≤ (fs k).wlim ∧ a.hunkSize ≤ (fs k).clim) →
    (∀ i ∈ is, i.isNew = false → a.alignOk i.daddr = true ∧ Mapped m i.daddr a.hunkSize ∧
      a.hunkCode (BitVec.ofNat 64 i.daddr) (BitVec.ofNat 64 i.saddr) ≠ none) →
    Mapped m (undo + n * a.hunkSize) (a.hunkSize * is.length) → (applyHunks a fs undo m n is).2.2 = true
  | [], _, _, _, _, _ => rfl
  | i :: is, m, n, hf, hi, hu => by
    have hr : (applyHunk a (fs n) m undo n i).2.2 = true := by
      cases hn : i.isNew with
      | true => rw [(applyHunk_spec a (fs n) m undo n i).2.2.1 hn]
      | false =>
        obtain ⟨h1, h2, h3⟩ := hi i List.mem_cons_self hn
        obtain ⟨code, hc⟩ := Option.ne_none_iff_exists'.1 h3
        have hl := hunkCode_length _ _ _ _ hc
        refine hunk_runs hn h1 (hf n).1 (hf n).2.1 ?_ h2 hc (by have := (hf n).2.2; omega) (by omega)
        intro k hk
        exact hu k (Nat.lt_of_lt_of_le hk (by rw [List.length_cons]; exact Nat.le_mul_of_pos_right _ (by omega)))
    have hd := (applyHunk_spec a (fs n) m undo n i).1
    unfold applyHunks
    simp only [hr, Bool.not_true, Bool.false_eq_true, if_false]
    refine hunks_run hf ?_ ?_
    · intro j hj hn
      obtain ⟨h1, h2, h3⟩ := hi j (List.mem_cons_of_mem _ hj) hn
      exact ⟨h1, fun k hk hc => h2 k hk ((hd _).1 hc), h3⟩
    · intro k hk hc
      have e : undo + (n + 1) * a.hunkSize + k = undo + n * a.hunkSize + (a.hunkSize + k) := by rw [Nat.succ_mul]; omega
      rw [e] at hc
      refine hu (a.hunkSize + k) ?_ ((hd _).1 hc)
      rw [List.length_cons, Nat.mul_succ]; omega

theorem parts_run {a : Arch} {e : ApplyEnv} {l : Layout} {undef ts : Nat} {hdr image : List Byte} {kpta : Nat} {m : Mem}
    (hh : hdr.length = 504) (hts : image.length = ts - hdrSize)
    (hj : ∀ jo, l.jmpOffset = some jo → jo = 504 ∧ 504 + jmpTableSize a undef ≤ l.elfOffset)
    (he : 504 ≤ l.elfOffset) (hfit : l.elfOffset + image.length ≤ l.totalMem) (hm : Mapped m kpta l.totalMem)
    (h1 : image.length ≤ e.wImage) (h2 : 504 ≤ e.wHdr) (h3 : jmpTableSize a undef ≤ e.wJmp) :
    (writeParts a e l undef ts hdr image kpta m).2 = true := by
  have hsub : ∀ x n, x + n ≤ l.totalMem → Mapped m (kpta + x) n := by
    intro x n hx k hk
    rw [Nat.add_assoc]
    exact hm (x + k) (by omega)
  have w1 := memWrite_full h1 (hsub l.elfOffset image.length hfit)
  have w2 := memWrite_full (lim := e.wHdr) (dst := kpta) (bs := hdr) (by omega)
    (mapped_write (lim := e.wImage) (d := kpta + l.elfOffset) (bs := image) (by rw [hh]; exact fun k hk => hm k (by omega)))
  have htake : image.take (ts - hdrSize) = image := by rw [← hts, List.take_length]
  unfold writeParts
  simp only [htake, w1, w2, Bool.not_true, Bool.false_eq_true, if_false]
  split
  · rename_i jo hjo
    obtain ⟨j1, j2⟩ := hj jo hjo
    have ht : (e.jmpTable.take (jmpTableSize a undef)).length ≤ jmpTableSize a undef := by
      rw [List.length_take]; exact Nat.min_le_left _ _
    exact memWrite_full (by omega) (mapped_write (mapped_write (hsub _ _ (by omega))))
  · rfl

theorem objectApply_runs {a : Arch} {e : ApplyEnv} {ids : List (List Byte)} {file : List Byte} {m : Mem}
    {v : ElfView} {kpta : Nat} {image : List Byte} {l : Layout} (A : ApplyAssumptions a e file m v kpta image l)
    (N : NothingFails a e ids file image v.undef)
    (hj : ∀ i ∈ parseInfos image v.infoOff v.ninfo, i.isOld → a.alignOk i.daddr = true ∧
      a.hunkCode (BitVec.ofNat 64 i.daddr) (BitVec.ofNat 64 i.saddr) ≠ none) :
    (objectApply a e ids file m).2.2 = true := by
  have hpg : 0 < e.page := by have := A.page; omega
  have hin := layout_ineq a e.page v.undef image.length v.infoOff v.ninfo hpg
    (by rw [← A.layout]; exact A.mem32) (by have := A.table.fits; omega)
  rw [← A.layout] at hin
  obtain ⟨i1, i2, i3, i4, i5, i6, i7⟩ := hin
  have hts : image.length = totalSizeOf (file.take hdrSize) - hdrSize := by
    rw [A.size]; simp [hdrSize]
  have hhl : (file.take hdrSize).length = 504 := by
    have := A.fileLen; rw [List.length_take]; simp only [hdrSize]; omega
  obtain ⟨hsl, -⟩ := storeLayout_spec (file.take hdrSize) l hhl
  have hmm : Mapped (mmapFixed m kpta l.totalMem) kpta l.totalMem := by
    intro k hk
    unfold mmapFixed
    rw [if_pos (by omega)]
    simp
  have hw := parts_run (a := a) (e := e) (l := l) (undef := v.undef) (ts := totalSizeOf (file.take hdrSize)) (kpta := kpta) hsl hts
    (fun jo hjo => by
      rcases i7 with ⟨_, h⟩ | ⟨_, h, h'⟩
      · rw [h] at hjo; cases hjo
      · rw [h] at hjo; cases hjo; exact ⟨rfl, h'⟩) i1 (by omega) hmm N.writes.1 N.writes.2.1 N.writes.2.2
  obtain ⟨w1, w2, -, -⟩ := writeParts_ok hw hsl i1 hts
    (fun jo hjo => by
      rcases i7 with ⟨_, h⟩ | ⟨_, h, h'⟩
      · rw [h] at hjo; cases hjo
      · rw [h] at hjo; cases hjo; exact ⟨rfl, h'⟩) (by omega)
  have hc : ids.contains (cstr (kpId file)) = false := by
    rw [Bool.eq_false_iff]
    intro h
    exact N.fresh (List.contains_iff_mem.1 h)
  have hlen : (parseInfos image v.infoOff v.ninfo).length = v.ninfo := parseInfos_length _ _ _
  unfold objectApply
  simp only [N.malloc.1, N.malloc.2.1, N.malloc.2.2, hc, A.view, A.region, N.prepared, A.size ▸ A.layout.symm, Bool.not_true,
    Bool.and_false, Bool.false_eq_true, if_false]
  unfold installPatch
  simp only [hw, N.safe, Bool.not_true, Bool.false_eq_true, if_false, N.mprotect, Bool.and_true]
  generalize (writeParts a e l v.undef (totalSizeOf (file.take hdrSize)) (storeLayout (file.take hdrSize) l)
    image kpta (mmapFixed m kpta l.totalMem)).1 = mw at *
  refine hunks_run N.hunks ?_ ?_
  · intro i hi hn
    have ho : i.isOld := (isOld_iff i).2 hn
    refine ⟨(hj i hi ho).1, ?_, (hj i hi ho).2⟩
    intro k hk
    have hlong := A.funcs.long i hi ho
    have hmap := A.funcs.mapped i hi ho
    have hout : ¬ InRange (i.daddr + k) kpta l.totalMem := by
      intro hr
      simp only [InRange] at hr
      have := A.free (i.daddr + k - kpta) (by omega)
      rw [show kpta + (i.daddr + k - kpta) = i.daddr + k by omega] at this
      exact hmap k (by omega) this
    rw [A.wait mw _ (Or.inr ⟨i, hi, ho, by simp only [InRange]; omega⟩), w1 _ hout]
    unfold mmapFixed
    rw [if_neg (by simp only [InRange] at hout; omega)]
    exact hmap k (by omega)
  · rw [hlen, Nat.zero_mul, Nat.add_zero]
    intro k hk
    rw [A.wait mw _ (Or.inl (by simp only [InRange]; omega))]
    intro hc
    have := (w2 _).1 hc
    have h' := hmm (l.userUndo + k) (by omega)
    rw [← Nat.add_assoc] at h'
    exact h' this

theorem restore_runs {a : Arch} {fs : Nat → HunkFault} {chk : Bool} {undo : Nat} : ∀ {is : List Info} {m : Mem} {n : Nat},
    (∀ k, a.hunkSize ≤ (fs k).rlim ∧ a.hunkSize ≤ (fs k).wlim) → (∀ i ∈ is, i.isOld → Mapped m i.daddr a.hunkSize) →
    Mapped m (undo + n * a.hunkSize) (a.hunkSize * is.length) → (restoreHunks a fs chk undo m n is).2 = true
  | [], _, _, _, _, _ => rfl
  | i :: is, m, n, hf, hi, hu => by
    have hnext : ∀ m' : Mem, (∀ z, m' z = none → m z = none) → (restoreHunks a fs chk undo m' (n + 1) is).2 = true := by
      intro m' hm'
      refine restore_runs hf (fun j hj ho k hk hc => hi j (List.mem_cons_of_mem _ hj) ho k hk (hm' _ hc)) ?_
      intro k hk hc
      have e : undo + (n + 1) * a.hunkSize + k = undo + n * a.hunkSize + (a.hunkSize + k) := by rw [Nat.succ_mul]; omega
      rw [e] at hc
      refine hu (a.hunkSize + k) ?_ (hm' _ hc)
      rw [List.length_cons, Nat.mul_succ]; omega
    unfold restoreHunks
    split
    · exact hnext m fun z h => h
    · rename_i hc
      have hn : i.isNew = false := by
        cases h : i.isNew with
        | false => rfl
        | true => rw [h] at hc; simp at hc
      obtain ⟨bs, e, hl, _⟩ := memRead_full (lim := (fs n).rlim) (m := m) (a := undo + n * a.hunkSize) (hf n).1 (fun k hk =>
        hu k (Nat.lt_of_lt_of_le hk (by rw [List.length_cons]; exact Nat.le_mul_of_pos_right _ (by omega))))
      have hd := hi i List.mem_cons_self ((isOld_iff i).2 hn)
      have w := memWrite_full (lim := (fs n).wlim) (bs := bs) (dst := i.daddr) (by have := (hf n).2; omega) (by rw [hl]; exact hd)
      have hc2 : (memCpy (fs n).rlim (fs n).wlim m i.daddr (undo + n * a.hunkSize) a.hunkSize) =
          ((memWrite (fs n).wlim m i.daddr bs).1, true) := by
        unfold memCpy
        rw [e]
        exact Prod.ext rfl w
      dsimp only
      rw [hc2]
      exact hnext _ fun z h => (memWrite_dom _ _ _ _ _).1 h

end Verif
