import Verif.Proof.Mem
import Verif.Proof.Jump
/-
Helper lemmas about installing one hunk and a list of hunks.
-/
namespace Verif

theorem hunkCode_length (a : Arch) (d s : BitVec 64) (code : List Byte)
    (h : a.hunkCode d s = some code) : code.length = a.hunkSize := by
  cases a <;> simp only [Arch.hunkCode, x86Code, aarch64Code, loongCode, riscvCode, le32,
    Arch.hunkSize, Option.some.injEq] at h ⊢
  · subst h; rfl
  · subst h; rfl
  · split at h
    · contradiction
    · simp only [Option.some.injEq] at h; subst h; rfl
  · subst h; rfl

/-- Everything there is to know about one `applyHunk`. -/
theorem applyHunk_spec (a : Arch) (f : HunkFault) (m : Mem) (undo n : Nat) (i : Info) :
    (∀ x, (applyHunk a f m undo n i).1 x = none ↔ m x = none) ∧
    (∀ x, ¬ InRange x i.daddr a.hunkSize → ¬ InRange x (undo + n * a.hunkSize) a.hunkSize →
      (applyHunk a f m undo n i).1 x = m x) ∧
    (i.isNew = true → applyHunk a f m undo n i = (m, i, true)) ∧
    (i.isNew = false →
      ((applyHunk a f m undo n i).2.1 = i ∧ (applyHunk a f m undo n i).2.2 = false ∧
        ∀ x, ¬ InRange x (undo + n * a.hunkSize) a.hunkSize → (applyHunk a f m undo n i).1 x = m x) ∨
      ((applyHunk a f m undo n i).2.1 = { i with applied := true } ∧
        ∃ (c : Mem) (code : List Byte),
          (∀ k, k < a.hunkSize → c (undo + n * a.hunkSize + k) = m (i.daddr + k) ∧ m (i.daddr + k) ≠ none) ∧
          (∀ x, ¬ InRange x (undo + n * a.hunkSize) a.hunkSize → c x = m x) ∧
          a.alignOk i.daddr = true ∧
          a.hunkCode (BitVec.ofNat 64 i.daddr) (BitVec.ofNat 64 i.saddr) = some code ∧
          (applyHunk a f m undo n i).1 = (memWrite f.clim c i.daddr code).1 ∧
          (applyHunk a f m undo n i).2.2 = (memWrite f.clim c i.daddr code).2)) := by
  unfold applyHunk
  cases hn : i.isNew with
  | true => simp
  | false =>
    simp only [Bool.false_eq_true, if_false, false_implies, true_implies]
    split
    · rename_i hal
      simp
    · rename_i hal
      simp only [Bool.not_eq_eq_eq_not, Bool.not_true, Bool.not_eq_false] at hal
      split
      · rename_i hc
        refine ⟨fun x => memCpy_dom _ _ _ _ _ _ x, fun x _ hx => memCpy_frame _ _ _ _ _ _ x hx, trivial, ?_⟩
        left
        exact ⟨rfl, rfl, fun x hx => memCpy_frame _ _ _ _ _ _ x hx⟩
      · rename_i hc
        simp only [Bool.not_eq_eq_eq_not, Bool.not_true, Bool.not_eq_false] at hc
        cases hcode : a.hunkCode (BitVec.ofNat 64 i.daddr) (BitVec.ofNat 64 i.saddr) with
        | none =>
          simp only
          refine ⟨fun x => memCpy_dom _ _ _ _ _ _ x, fun x _ hx => memCpy_frame _ _ _ _ _ _ x hx, trivial, ?_⟩
          left
          exact ⟨trivial, trivial, fun x hx => memCpy_frame _ _ _ _ _ _ x hx⟩
        | some code =>
          have hl := hunkCode_length _ _ _ _ hcode
          simp only
          refine ⟨fun x => by rw [memWrite_dom, memCpy_dom], ?_, trivial, ?_⟩
          · intro x h1 h2
            rw [memWrite_frame _ _ _ _ _ (by rw [hl]; exact h1), memCpy_frame _ _ _ _ _ _ x h2]
          · right
            refine ⟨trivial, _, code, memCpy_ok _ _ _ _ _ _ hc, ?_, hal, rfl, rfl, rfl⟩
            intro x hx
            exact memCpy_frame _ _ _ _ _ _ x hx

/-- A successful hunk leaves the architecture's code at the entry. -/
theorem applyHunk_ok (a : Arch) (f : HunkFault) (m : Mem) (undo n : Nat) (i : Info)
    (hnew : i.isNew = false) (hok : (applyHunk a f m undo n i).2.2 = true) :
    a.alignOk i.daddr = true ∧
    ∃ code, a.hunkCode (BitVec.ofNat 64 i.daddr) (BitVec.ofNat 64 i.saddr) = some code ∧
      Holds (applyHunk a f m undo n i).1 i.daddr code := by
  obtain ⟨_, _, _, h⟩ := applyHunk_spec a f m undo n i
  rcases h hnew with ⟨_, hf, _⟩ | ⟨_, c, code, _, _, hal, hcode, hm, hw⟩
  · rw [hf] at hok; contradiction
  · refine ⟨hal, code, hcode, ?_⟩
    rw [hm]
    exact (memWrite_ok _ _ _ _ (by rw [← hw]; exact hok)).1

end Verif
