import Verif.Proof.Hunk
/-
Helper lemmas about the hunk loop and the restore loop.
-/
namespace Verif

/-- Entries of old functions do not overlap each other. -/
def EntriesDisjoint (H : Nat) (is : List Info) : Prop :=
  is.Pairwise fun i j => i.isNew = false → j.isNew = false → RangesDisjoint i.daddr H j.daddr H

/-- Entries of old functions do not overlap `[base, base+len)`. -/
def EntriesAvoid (H : Nat) (is : List Info) (base len : Nat) : Prop :=
  ∀ i ∈ is, i.isNew = false → RangesDisjoint i.daddr H base len

theorem RangesDisjoint.notIn {a n b k x : Nat} (h : RangesDisjoint a n b k) (hx : InRange x a n) :
    ¬ InRange x b k := fun hb => h x ⟨hx, hb⟩

theorem RangesDisjoint.symm {a n b k : Nat} (h : RangesDisjoint a n b k) : RangesDisjoint b k a n :=
  fun x hx => h x ⟨hx.2, hx.1⟩

theorem RangesDisjoint.sub {a n b k b' k' : Nat} (h : RangesDisjoint a n b k)
    (h1 : b ≤ b') (h2 : b' + k' ≤ b + k) : RangesDisjoint a n b' k' := by
  intro x hx
  apply h x
  simp only [InRange] at *
  omega

theorem InRange.add {a n j : Nat} (h : j < n) : InRange (a + j) a n := by
  simp only [InRange]; omega

theorem isNew_applied (i : Info) (b : Bool) : Info.isNew { i with applied := b } = i.isNew := rfl

theorem undo_head_range (undo n H L : Nat) :
    undo + n * H + H ≤ undo + n * H + (L + 1) * H := by
  have : (L + 1) * H = L * H + H := by rw [Nat.add_mul]; omega
  omega

theorem undo_tail_range (undo n H L : Nat) :
    undo + n * H ≤ undo + (n + 1) * H ∧ undo + (n + 1) * H + L * H = undo + n * H + (L + 1) * H ∧
      undo + (n + 1) * H = undo + n * H + H := by
  have h1 : (L + 1) * H = L * H + H := by rw [Nat.add_mul]; omega
  have h2 : (n + 1) * H = n * H + H := by rw [Nat.add_mul]; omega
  omega

/-- Full description of the hunk loop, for every behaviour of the kernel. -/
theorem applyHunks_spec (a : Arch) (fs : Nat → HunkFault) (undo : Nat) (is : List Info) :
    ∀ (m : Mem) (n : Nat),
    EntriesDisjoint a.hunkSize is →
    EntriesAvoid a.hunkSize is (undo + n * a.hunkSize) (is.length * a.hunkSize) →
    (∀ i ∈ is, i.applied = false) →
    let r := applyHunks a fs undo m n is
    (∀ x, r.1 x = none ↔ m x = none) ∧
    (∀ x, (∀ i ∈ is, i.isNew = false → ¬ InRange x i.daddr a.hunkSize) →
      ¬ InRange x (undo + n * a.hunkSize) (is.length * a.hunkSize) → r.1 x = m x) ∧
    r.2.1.length = is.length ∧
    (∀ (k : Nat) (h : k < is.length), ∃ b : Bool,
      r.2.1[k]? = some { is[k] with applied := b } ∧
      (is[k].isNew = true → b = false) ∧
      (is[k].isNew = false → r.2.2 = true → b = true ∧
        ∃ code, a.hunkCode (BitVec.ofNat 64 is[k].daddr) (BitVec.ofNat 64 is[k].saddr) = some code ∧
          Holds r.1 is[k].daddr code) ∧
      (is[k].isNew = false → b = true → ∀ j, j < a.hunkSize →
        r.1 (undo + (n + k) * a.hunkSize + j) = m (is[k].daddr + j) ∧ m (is[k].daddr + j) ≠ none) ∧
      (is[k].isNew = false → b = false → ∀ j, j < a.hunkSize →
        r.1 (is[k].daddr + j) = m (is[k].daddr + j))) := by
  induction is with
  | nil => intro m n _ _ _; simp [applyHunks]
  | cons i is ih =>
    intro m n hpw hav hfl
    obtain ⟨hd, hpw'⟩ := List.pairwise_cons.mp hpw
    have hfl0 : i.applied = false := hfl i (by simp)
    obtain ⟨sdom, sframe, snew, sold⟩ := applyHunk_spec a (fs n) m undo n i
    have hi_undo : i.isNew = false → RangesDisjoint i.daddr a.hunkSize (undo + n * a.hunkSize) ((is.length + 1) * a.hunkSize) :=
      fun h => by simpa using hav i (by simp) h
    have tr := undo_tail_range undo n a.hunkSize is.length
    have hr := undo_head_range undo n a.hunkSize is.length
    -- entries of the tail keep their bytes while hunk `n` is installed
    have tail_entry : ∀ t ∈ is, t.isNew = false → ∀ j, j < a.hunkSize →
        (applyHunk a (fs n) m undo n i).1 (t.daddr + j) = m (t.daddr + j) := by
      intro t ht hn j hj
      cases hin : i.isNew with
      | true => rw [snew hin]
      | false =>
        apply sframe
        · exact (hd t ht hin hn).symm.notIn (InRange.add hj)
        · have := hav t (by simp [ht]) hn
          exact ((this.sub (b' := undo + n * a.hunkSize) (k' := a.hunkSize) (Nat.le_refl _)
            (by simpa using hr))).notIn (InRange.add hj)
    have hav' : EntriesAvoid a.hunkSize is (undo + (n + 1) * a.hunkSize) (is.length * a.hunkSize) := by
      intro t ht hn
      refine (hav t (by simp [ht]) hn).sub tr.1 ?_
      simp only [List.length_cons]; omega
    simp only [applyHunks]
    cases hok : (applyHunk a (fs n) m undo n i).2.2 with
    | false =>
      -- failed at this hunk
      have hnew : i.isNew = false := by
        cases h : i.isNew with
        | false => rfl
        | true => rw [snew h] at hok; contradiction
      simp only [Bool.not_false, if_true]
      refine ⟨sdom, ?_, by simp, ?_⟩
      · intro x hx hu
        apply sframe
        · exact hx i (by simp) hnew
        · intro h; apply hu
          simp only [InRange, List.length_cons] at *; omega
      · intro k hk
        cases k with
        | zero =>
          simp only [List.getElem?_cons_zero, List.getElem_cons_zero, Nat.add_zero]
          rcases sold hnew with ⟨h1, h2, h3⟩ | ⟨h1, c, code, hc, hcf, hal, hcode, hm, hw⟩
          · refine ⟨false, by rw [h1, ← hfl0], by simp, by simp, by simp, ?_⟩
            intro _ _ j hj
            apply h3
            exact ((hi_undo hnew).sub (Nat.le_refl _) hr).notIn (InRange.add hj)
          · refine ⟨true, by rw [h1], by simp [hnew], by simp, ?_, by simp⟩
            intro _ _ j hj
            refine ⟨?_, (hc j hj).2⟩
            rw [hm, memWrite_frame, (hc j hj).1]
            rw [hunkCode_length _ _ _ _ hcode]
            exact (((hi_undo hnew).sub (Nat.le_refl _) hr).symm).notIn (InRange.add hj)
        | succ k =>
          have hk' : k < is.length := by simpa using hk
          have hmem : is[k] ∈ is := List.getElem_mem hk'
          simp only [List.getElem?_cons_succ, List.getElem_cons_succ]
          refine ⟨false, ?_, by simp, by simp, by simp, ?_⟩
          · rw [List.getElem?_eq_getElem hk', ← hfl is[k] (by simp [hmem])]
          · intro hn _ j hj
            exact tail_entry _ hmem hn j hj
    | true =>
      simp only [Bool.not_true, Bool.false_eq_true, if_false]
      obtain ⟨rdom, rframe, rlen, rrec⟩ := ih (applyHunk a (fs n) m undo n i).1 (n + 1) hpw' hav'
        (fun t ht => hfl t (by simp [ht]))
      -- the tail does not touch what hunk `n` wrote
      have keep : ∀ x, (i.isNew = false → InRange x i.daddr a.hunkSize ∨ InRange x (undo + n * a.hunkSize) a.hunkSize) →
          i.isNew = false →
          (applyHunks a fs undo (applyHunk a (fs n) m undo n i).1 (n + 1) is).1 x =
            (applyHunk a (fs n) m undo n i).1 x := by
        intro x hx hin
        apply rframe
        · intro t ht hn hxt
          rcases hx hin with h | h
          · exact (hd t ht hin hn) x ⟨h, hxt⟩
          · exact (hav t (by simp [ht]) hn) x ⟨hxt, by
              simp only [InRange, List.length_cons] at *; omega⟩
        · rcases hx hin with h | h
          · exact ((hi_undo hin).sub tr.1 (by omega)).notIn h
          · simp only [InRange] at *; omega
      refine ⟨fun x => by rw [rdom, sdom], ?_, by simp [rlen], ?_⟩
      · intro x hx hu
        rw [rframe x (fun t ht hn => hx t (by simp [ht]) hn)
          (by intro h; apply hu; simp only [InRange, List.length_cons] at *; omega)]
        cases hin : i.isNew with
        | true => rw [snew hin]
        | false =>
          apply sframe _ (hx i (by simp) hin)
          intro h; apply hu
          simp only [InRange, List.length_cons] at *; omega
      · intro k hk
        cases k with
        | zero =>
          simp only [List.getElem?_cons_zero, List.getElem_cons_zero, Nat.add_zero]
          cases hin : i.isNew with
          | true => exact ⟨false, by rw [snew hin, ← hfl0], by simp, by simp, by simp, by simp⟩
          | false =>
            rcases sold hin with ⟨h1, h2, h3⟩ | ⟨h1, c, code, hc, hcf, hal, hcode, hm, hw⟩
            · rw [h2] at hok; contradiction
            · refine ⟨true, by rw [h1], by simp, ?_, ?_, by simp⟩
              · intro _ _
                refine ⟨rfl, code, hcode, ?_⟩
                intro j hj
                have hlen := hunkCode_length _ _ _ _ hcode
                rw [keep _ (fun _ => Or.inl (InRange.add (by omega))) hin, hm]
                exact (memWrite_ok _ _ _ _ (by rw [← hw]; exact hok)).1 j hj
              · intro _ _ j hj
                refine ⟨?_, (hc j hj).2⟩
                rw [keep _ (fun _ => Or.inr (InRange.add hj)) hin, hm, memWrite_frame, (hc j hj).1]
                rw [hunkCode_length _ _ _ _ hcode]
                exact (((hi_undo hin).sub (Nat.le_refl _) hr).symm).notIn (InRange.add hj)
        | succ k =>
          have hk' : k < is.length := by simpa using hk
          have hmem : is[k] ∈ is := List.getElem_mem hk'
          simp only [List.getElem?_cons_succ, List.getElem_cons_succ]
          obtain ⟨b, h1, h2, h3, h4, h5⟩ := rrec k hk'
          refine ⟨b, h1, h2, h3, ?_, ?_⟩
          · intro hn hb j hj
            have := h4 hn hb j hj
            rw [tail_entry _ hmem hn j hj] at this
            rwa [show n + (k + 1) = n + 1 + k by omega]
          · intro hn hb j hj
            rw [h5 hn hb j hj, tail_entry _ hmem hn j hj]

/-- A record that the restore loop processes. -/
def Restored (checkFlag : Bool) (i : Info) : Prop :=
  i.isNew = false ∧ (checkFlag = true → i.applied = true)

/-- Full description of the restore loop, for every behaviour of the kernel. -/
theorem restoreHunks_spec (a : Arch) (fs : Nat → HunkFault) (chk : Bool) (undo : Nat) (is : List Info) :
    ∀ (m : Mem) (n : Nat),
    EntriesDisjoint a.hunkSize is →
    EntriesAvoid a.hunkSize is (undo + n * a.hunkSize) (is.length * a.hunkSize) →
    let r := restoreHunks a fs chk undo m n is
    (∀ x, r.1 x = none ↔ m x = none) ∧
    (∀ x, (∀ i ∈ is, Restored chk i → ¬ InRange x i.daddr a.hunkSize) → r.1 x = m x) ∧
    (r.2 = true → ∀ (k : Nat) (h : k < is.length), Restored chk is[k] → ∀ j, j < a.hunkSize →
      r.1 (is[k].daddr + j) = m (undo + (n + k) * a.hunkSize + j)) := by
  induction is with
  | nil => intro m n _ _; simp [restoreHunks]
  | cons i is ih =>
    intro m n hpw hav
    obtain ⟨hd, hpw'⟩ := List.pairwise_cons.mp hpw
    have tr := undo_tail_range undo n a.hunkSize is.length
    have hr := undo_head_range undo n a.hunkSize is.length
    have hav' : EntriesAvoid a.hunkSize is (undo + (n + 1) * a.hunkSize) (is.length * a.hunkSize) := by
      intro t ht hn
      refine (hav t (by simp [ht]) hn).sub tr.1 ?_
      simp only [List.length_cons]; omega
    simp only [restoreHunks]
    by_cases hskip : (i.isNew || (chk && !i.applied)) = true
    · rw [if_pos hskip]
      obtain ⟨rdom, rframe, rres⟩ := ih m (n + 1) hpw' hav'
      have hnr : ¬ Restored chk i := by
        intro h
        obtain ⟨h1, h2⟩ := h
        simp only [h1, Bool.false_or, Bool.and_eq_true, Bool.not_eq_true'] at hskip
        rw [h2 hskip.1] at hskip
        simp at hskip
      refine ⟨rdom, fun x hx => rframe x (fun t ht => hx t (by simp [ht])), ?_⟩
      intro hok k hk hres j hj
      cases k with
      | zero => exact absurd hres hnr
      | succ k =>
        have := rres hok k (by simpa using hk) (by simpa using hres) j hj
        rw [show n + (k + 1) = n + 1 + k by omega]
        exact this
    · rw [if_neg hskip]
      have hri : Restored chk i := by
        simp only [Bool.or_eq_true, Bool.and_eq_true, Bool.not_eq_true', not_or, not_and,
          Bool.not_eq_false] at hskip
        exact ⟨by simpa using hskip.1, by simpa using hskip.2⟩
      have hin := hri.1
      have hiu := hav i (by simp) hin
      cases hc : (memCpy (fs n).rlim (fs n).wlim m i.daddr (undo + n * a.hunkSize) a.hunkSize).2 with
      | false =>
        simp only [Bool.not_false, if_true]
        refine ⟨fun x => memCpy_dom _ _ _ _ _ _ x, ?_, by simp⟩
        intro x hx
        exact memCpy_frame _ _ _ _ _ _ x (hx i (by simp) hri)
      | true =>
        simp only [Bool.not_true, Bool.false_eq_true, if_false]
        obtain ⟨rdom, rframe, rres⟩ := ih (memCpy (fs n).rlim (fs n).wlim m i.daddr (undo + n * a.hunkSize) a.hunkSize).1
          (n + 1) hpw' hav'
        refine ⟨fun x => by rw [rdom, memCpy_dom], ?_, ?_⟩
        · intro x hx
          rw [rframe x (fun t ht => hx t (by simp [ht])), memCpy_frame _ _ _ _ _ _ x (hx i (by simp) hri)]
        · intro hok k hk hres j hj
          cases k with
          | zero =>
            simp only [List.getElem_cons_zero, Nat.add_zero]
            rw [rframe]
            · exact (memCpy_ok _ _ _ _ _ _ hc j hj).1
            · intro t ht htr
              exact (hd t ht hin htr.1).notIn (InRange.add hj)
          | succ k =>
            have hk' : k < is.length := by simpa using hk
            simp only [List.getElem_cons_succ] at hres ⊢
            rw [rres hok k hk' hres j hj, show n + (k + 1) = n + 1 + k by omega]
            apply memCpy_frame
            apply hiu.symm.notIn
            have h1 : (n + 1 + k) * a.hunkSize = n * a.hunkSize + k * a.hunkSize + a.hunkSize := by
              rw [Nat.add_mul, Nat.add_mul]; omega
            have h2 : (is.length + 1) * a.hunkSize = is.length * a.hunkSize + a.hunkSize := by
              rw [Nat.add_mul]; omega
            have h3 : k * a.hunkSize + a.hunkSize ≤ is.length * a.hunkSize := by
              have : (k + 1) * a.hunkSize ≤ is.length * a.hunkSize := Nat.mul_le_mul_right _ hk'
              rw [Nat.add_mul] at this; omega
            simp only [InRange, List.length_cons] at *
            omega

end Verif
