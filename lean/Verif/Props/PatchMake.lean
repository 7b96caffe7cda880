import Verif.Model.PatchMake
/-
C94: the sources are restored.  C95: the compiler is restored.  C96: which patches are published.
-/
namespace Verif

/-! ## C94 -/

section
variable {ν γ : Type} [DecidableEq ν]

/-- The names of all files that the patches name. -/
def namesOf (ps : List (SrcPatch ν γ)) : List ν := ps.flatMap fun p => p.map (·.1)

/-- The tree may be restored to `src`: a file has been saved as it is in `src`, or is as in `src`. -/
def Restorable (src : ν → Option γ) (t : SrcTree ν γ) : Prop :=
  ∀ n, (∃ c, t.saved n = some (.content c) ∧ src n = some c) ∨ (t.saved n = none ∧ t.files n = src n)

theorem patchFile_step {src : ν → Option γ} {t : SrcTree ν γ} (h : Restorable src t) (e : ν × (Option γ → Option γ))
    (hn : t.saved e.1 = none) (hs : src e.1 ≠ none) :
    Restorable src (patchFile t e) ∧ ∀ n, n ≠ e.1 → (patchFile t e).saved n = t.saved n := by
  refine ⟨fun n => ?_, fun n hne => by simp [patchFile, hne]⟩
  by_cases hne : n = e.1
  · subst hne
    rcases h e.1 with ⟨c, h1, _⟩ | ⟨_, h2⟩
    · rw [hn] at h1
      exact absurd h1 (by simp)
    · cases hc : src e.1 with
      | none => exact absurd hc hs
      | some c =>
        refine Or.inl ⟨c, ?_, rfl⟩
        simp [patchFile, h2, hc]
  · simp only [patchFile, if_neg hne]
    exact h n

theorem patchFiles_step {src : ν → Option γ} : ∀ (es : List (ν × (Option γ → Option γ))) (t : SrcTree ν γ),
    Restorable src t → (es.map (·.1)).Nodup → (∀ n ∈ es.map (·.1), t.saved n = none ∧ src n ≠ none) →
    Restorable src (es.foldl patchFile t) := by
  intro es
  induction es with
  | nil => exact fun _ h _ _ => h
  | cons e es ih =>
    intro t h hnd hok
    simp only [List.map_cons, List.nodup_cons] at hnd
    obtain ⟨h1, h2⟩ := patchFile_step h e (hok e.1 (by simp)).1 (hok e.1 (by simp)).2
    refine ih (patchFile t e) h1 hnd.2 (fun n hn => ?_)
    have := hok n (by simp only [List.map_cons, List.mem_cons]; exact Or.inr hn)
    refine ⟨?_, this.2⟩
    rw [h2 n (fun e' => hnd.1 (e' ▸ hn))]
    exact this.1

theorem foldl_flat (ps : List (SrcPatch ν γ)) (t : SrcTree ν γ) : ps.foldl applySrc t = (ps.flatMap id).foldl patchFile t := by
  induction ps generalizing t with
  | nil => rfl
  | cons p ps ih => simp only [List.foldl_cons, List.flatMap_cons, List.foldl_append, id_eq, ih, applySrc]

theorem names_flat (ps : List (SrcPatch ν γ)) : namesOf ps = (ps.flatMap id).map (·.1) := by
  induction ps with
  | nil => rfl
  | cons p ps ih => simp only [namesOf, List.flatMap_cons, List.map_append, id_eq] at ih ⊢; rw [ih]

theorem restore_of {src : ν → Option γ} {t : SrcTree ν γ} (empty : γ) (h : Restorable src t) :
    restoreOrigs empty t = ⟨src, fun _ => none⟩ := by
  unfold restoreOrigs
  congr 1
  funext n
  rcases h n with ⟨c, h1, h2⟩ | ⟨h1, h2⟩
  · simp only [h1, h2]
  · simp only [h1, h2]

theorem names_take (ps : List (SrcPatch ν γ)) (k : Nat) : (namesOf (ps.take k)).Sublist (namesOf ps) := by
  have : namesOf ps = namesOf (ps.take k) ++ namesOf (ps.drop k) := by
    simp only [namesOf, ← List.flatMap_append, List.take_append_drop]
  rw [this]
  exact List.sublist_append_left _ _

/-- The patches of a run are fit: no file is named twice, and every named file is in the sources. -/
def FitPatches (src : ν → Option γ) (ps : List (SrcPatch ν γ)) : Prop :=
  (namesOf ps).Nodup ∧ ∀ n ∈ namesOf ps, src n ≠ none

theorem run_restorable {src : ν → Option γ} {t : SrcTree ν γ} (empty : γ) (h : Restorable src t) {ps : List (SrcPatch ν γ)}
    (hp : FitPatches src ps) (cut : Option Nat) :
    (patchMakeRun empty t ps cut).1 = src ∧ Restorable src (patchMakeRun empty t ps cut).2 ∧
    (cut = none → (patchMakeRun empty t ps cut).2 = ⟨src, fun _ => none⟩) := by
  have h0 := restore_of empty h
  have base : ∀ qs : List (SrcPatch ν γ), FitPatches src qs →
      Restorable src (qs.foldl applySrc (⟨src, fun _ => none⟩ : SrcTree ν γ)) := by
    intro qs hq
    rw [foldl_flat]
    refine patchFiles_step (src := src) _ ⟨src, fun _ => none⟩ (fun n => Or.inr ⟨rfl, rfl⟩) ?_ (fun n hn => ⟨rfl, ?_⟩)
    · rw [← names_flat]; exact hq.1
    · rw [← names_flat] at hn; exact hq.2 n hn
  cases cut with
  | some k =>
    simp only [patchMakeRun, h0]
    have hs := names_take ps k
    exact ⟨trivial, base (ps.take k) ⟨hp.1.sublist hs, fun n hn => hp.2 n (hs.subset hn)⟩, fun h => absurd h (by simp)⟩
  | none =>
    simp only [patchMakeRun, h0]
    rw [restore_of empty (base ps hp)]
    exact ⟨trivial, fun n => Or.inr ⟨rfl, rfl⟩, fun _ => rfl⟩

/-- After every sequence of runs, some of them killed while they applied source patches, a further run builds the
original from the sources as they were before the first run, and leaves them so when it is not killed.  Missing: runs
whose patches name a file twice or create one (`C94_violated_twice`, `C94_violated_created`). -/
theorem C94_sources_restored_partial (empty : γ) (src : ν → Option γ) (h : List (List (SrcPatch ν γ) × Option Nat))
    (hf : ∀ r ∈ h, FitPatches src r.1) (ps : List (SrcPatch ν γ)) (hp : FitPatches src ps) :
    (patchMakeRun empty (patchMakeRuns empty ⟨src, fun _ => none⟩ h) ps none).1 = src ∧
    (patchMakeRun empty (patchMakeRuns empty ⟨src, fun _ => none⟩ h) ps none).2.files = src := by
  have go : ∀ (h : List (List (SrcPatch ν γ) × Option Nat)) (t : SrcTree ν γ), Restorable src t →
      (∀ r ∈ h, FitPatches src r.1) → Restorable src (patchMakeRuns empty t h) := by
    intro h
    induction h with
    | nil => exact fun t ht _ => ht
    | cons r h ih =>
      intro t ht hf
      exact ih _ (run_restorable empty ht (hf r (by simp)) r.2).2.1 (fun r hr => hf r (List.mem_cons_of_mem _ hr))
  obtain ⟨h1, _, h3⟩ := run_restorable empty (go h ⟨src, fun _ => none⟩ (fun n => Or.inr ⟨rfl, rfl⟩) hf) hp none
  exact ⟨h1, by rw [h3 rfl]⟩

end

/-- A source tree with the file 1. -/
def exSrc : Nat → Option String := fun n => if n = 1 then some "old" else none

/-- Violation: two patches that change the same file leave it as the first one made it. -/
theorem C94_violated_twice : ∃ (ps : List (SrcPatch Nat String)), (∀ n ∈ namesOf ps, exSrc n ≠ none) ∧
    (patchMakeRun "" ⟨exSrc, fun _ => none⟩ ps none).2.files 1 = some "one" :=
  ⟨[[(1, fun _ => some "one")], [(1, fun _ => some "two")]], by decide, by decide⟩

/-- Violation: a file that a patch creates stays, as an empty file. -/
theorem C94_violated_created : ∃ (ps : List (SrcPatch Nat String)), (namesOf ps).Nodup ∧
    (patchMakeRun "" ⟨exSrc, fun _ => none⟩ ps none).2.files 2 = some "" ∧ exSrc 2 = none :=
  ⟨[[(2, fun _ => some "new")]], by decide, by decide, by decide⟩

/-- A fit run, and a killed one before it. -/
example : FitPatches exSrc [[(1, fun _ => some "one")]] ∧
    (patchMakeRuns "" ⟨exSrc, fun _ => none⟩ [([[(1, fun _ => some "one")]], some 1)]).files 1 = some "one" ∧
    (patchMakeRun "" (patchMakeRuns "" ⟨exSrc, fun _ => none⟩ [([[(1, fun _ => some "one")]], some 1)])
      [[(1, fun _ => none)]] none).2.files 1 = some "old" :=
  ⟨⟨by decide, by decide⟩, by decide, by decide⟩

/-! ## C95 -/

/-- After runs in which no tool failed `cc` is what it was.  Missing: runs in which a tool fails
(`C95_violated_failure`). -/
theorem C95_compiler_restored_partial (h : List Bool) (hf : ∀ f ∈ h, f = false) (l : CcLink) : h.foldl ccRunLink l = l := by
  induction h with
  | nil => rfl
  | cons f h ih =>
    have := hf f (by simp)
    subst this
    exact ih (fun f hf' => hf f (List.mem_cons_of_mem _ hf'))

/-- Violation: a run in which a tool fails leaves the wrapper as `cc`, and no later run brings the compiler back. -/
theorem C95_violated_failure (before after : List Bool) (l : CcLink) :
    (before ++ true :: after).foldl ccRunLink l = .wrapper := by
  rw [List.foldl_append, List.foldl_cons]
  generalize before.foldl ccRunLink l = m
  have : ccRunLink m true = .wrapper := rfl
  rw [this]
  induction after with
  | nil => rfl
  | cons f after ih =>
    have : ccRunLink .wrapper f = .wrapper := by cases f <;> rfl
    rw [List.foldl_cons, this]
    exact ih

example : [false, false].foldl ccRunLink .real = .real := rfl

/-! ## C96 -/

section
variable {β γ : Type} [DecidableEq β]

/-- A patch is due for the executable: it was changed, has a build id, and every tool succeeded. -/
def BuiltExec.Due (e : BuiltExec β γ) : Prop :=
  e.changed = true ∧ e.strip = 0 ∧ e.fixup = 0 ∧ e.unneeded = 0 ∧ e.undo = 0 ∧ e.make = 0

theorem build_root (opt : Option β) : ∀ (es : List (BuiltExec β γ)) (root : β → Option γ) (b : β),
    (buildKpatches opt root es).1 b = root b ∨
    ∃ e ∈ es, (buildKpatches opt root es).1 b = some e.patch ∧ e.changed = true ∧ e.strip = 0 ∧ e.fixup = 0 ∧ e.unneeded = 0 ∧
      e.make = 0 ∧ ∃ own, e.id = some own ∧ opt.getD own = b := by
  intro es
  induction es with
  | nil => exact fun root b => Or.inl rfl
  | cons e es ih =>
    intro root b
    have lift : ∀ r : β → Option γ, (r b = root b ∨ (r b = some e.patch ∧ e.changed = true ∧ e.strip = 0 ∧ e.fixup = 0 ∧
        e.unneeded = 0 ∧ e.make = 0 ∧ ∃ own, e.id = some own ∧ opt.getD own = b)) →
        buildKpatches opt root (e :: es) = buildKpatches opt r es →
        (buildKpatches opt root (e :: es)).1 b = root b ∨
        ∃ x ∈ e :: es, (buildKpatches opt root (e :: es)).1 b = some x.patch ∧ x.changed = true ∧ x.strip = 0 ∧ x.fixup = 0 ∧
          x.unneeded = 0 ∧ x.make = 0 ∧ ∃ own, x.id = some own ∧ opt.getD own = b := by
      intro r hr he
      rw [he]
      rcases ih r b with h | ⟨x, hx, h⟩
      · rw [h]
        rcases hr with h' | ⟨h', h2⟩
        · exact Or.inl h'
        · exact Or.inr ⟨e, by simp, h', h2⟩
      · exact Or.inr ⟨x, List.mem_cons_of_mem _ hx, h⟩
    cases hc : e.changed with
    | false => exact lift root (Or.inl rfl) (by rw [buildKpatches]; simp [hc])
    | true =>
      cases hi : e.id with
      | none => exact lift root (Or.inl rfl) (by rw [buildKpatches]; simp [hi])
      | some own =>
        by_cases h1 : e.strip ≠ 0
        · exact Or.inl (by rw [buildKpatches]; simp [hc, hi, h1])
        by_cases h2 : e.fixup ≠ 0
        · exact lift root (Or.inl rfl) (by rw [buildKpatches]; simp [hc, hi, h1, h2])
        by_cases h3 : e.unneeded ≠ 0
        · exact Or.inl (by rw [buildKpatches]; simp [hc, hi, h1, h2, h3])
        by_cases h4 : e.make ≠ 0
        · exact Or.inl (by rw [buildKpatches]; simp [hc, hi, h1, h2, h3, h4])
        rw [Decidable.not_not] at h1 h2 h3 h4
        refine lift (fun x => if x = opt.getD own then some e.patch else root x) ?_
          (by rw [buildKpatches]; simp [hc, hi, h1, h2, h3, h4])
        by_cases hb : b = opt.getD own
        · exact Or.inr ⟨by simp [hb], hc, h1, h2, h3, h4, own, hi, hb.symm⟩
        · exact Or.inl (by simp [hb])

/-- What is published under a build id and was not there before is the patch of an executable with this build id, for which
a patch is due.  Missing: executables for which `kpatch_strip --undo-link` fails (`C96_violated_undo`). -/
theorem C96_published_is_due_partial (root : β → Option γ) (es : List (BuiltExec β γ)) (hu : ∀ e ∈ es, e.undo = 0) (b : β)
    (h : (buildKpatches none root es).1 b ≠ root b) :
    ∃ e ∈ es, (buildKpatches none root es).1 b = some e.patch ∧ e.id = some b ∧ e.Due := by
  rcases build_root none es root b with h' | ⟨e, he, h1, h2, h3, h4, h5, h6, own, h7, h8⟩
  · exact absurd h' h
  · exact ⟨e, he, h1, by rw [h7, ← h8]; rfl, h2, h3, h4, h5, hu e he, h6⟩

/-- When the script reaches its end, every executable for which a patch is due and whose build id no other one has is
published.  With the option `-b` all go to the same name (`C96_violated_option`). -/
theorem C96_due_is_published (root : β → Option γ) (es : List (BuiltExec β γ)) (hend : (buildKpatches none root es).2 = true)
    (hd : es.Pairwise fun x y => x.id ≠ y.id ∨ x.id = none) (e : BuiltExec β γ) (he : e ∈ es) (hdue : e.Due) (b : β)
    (hb : e.id = some b) : (buildKpatches none root es).1 b = some e.patch := by
  induction es generalizing root with
  | nil => exact absurd he List.not_mem_nil
  | cons x es ih =>
    rw [List.pairwise_cons] at hd
    have hrest : ∀ r, e ∈ es → buildKpatches none root (x :: es) = buildKpatches none r es →
        (buildKpatches none root (x :: es)).1 b = some e.patch := by
      intro r hm heq
      rw [heq] at hend ⊢
      exact ih r hend hd.2 hm
    rcases List.mem_cons.1 he with rfl | hm
    · obtain ⟨h1, h2, h3, h4, h5, h6⟩ := hdue
      have heq : buildKpatches none root (e :: es) = buildKpatches none (fun y => if y = b then some e.patch else root y) es := by
        rw [buildKpatches]
        simp [h1, hb, h2, h3, h4, h6]
      rw [heq]
      rcases build_root none es (fun y => if y = b then some e.patch else root y) b with h | ⟨z, hz, _, _, _, _, _, _, own, h7, h8⟩
      · rw [h]; simp
      · rcases hd.1 z hz with h | h
        · exact absurd (by rw [hb, h7, ← h8]; rfl) h
        · rw [hb] at h
          exact absurd h (by simp)
    · have hsplit : buildKpatches none root (x :: es) = (root, false) ∨ ∃ r, buildKpatches none root (x :: es) = buildKpatches none r es := by
        rw [buildKpatches]
        repeat' split
        all_goals first
          | exact Or.inl rfl
          | exact Or.inr ⟨_, rfl⟩
      rcases hsplit with h | ⟨r, h⟩
      · rw [h] at hend
        exact absurd hend (by simp)
      · exact hrest r hm h

end

/-- Two changed executables, of which the second one's relocations could not be rewritten, and an unchanged one. -/
def exBuilt : List (BuiltExec Nat String) :=
  [⟨true, some 10, 0, 0, 0, 0, 0, "A"⟩, ⟨true, some 11, 0, 1, 0, 0, 0, "B"⟩, ⟨false, some 12, 0, 0, 0, 0, 0, "C"⟩]

example : (buildKpatches none (fun _ => none) exBuilt).2 = true ∧ (buildKpatches none (fun _ => none) exBuilt).1 10 = some "A" ∧
    (buildKpatches none (fun _ => none) exBuilt).1 11 = none ∧ (buildKpatches none (fun _ => none) exBuilt).1 12 = none := by decide

/-- Violation: a patch is published although `kpatch_strip --undo-link` failed for it. -/
theorem C96_violated_undo : ∃ (e : BuiltExec Nat String), e.undo ≠ 0 ∧
    (buildKpatches none (fun _ => none) [e]).2 = true ∧ (buildKpatches none (fun _ => none) [e]).1 10 = some "A" :=
  ⟨⟨true, some 10, 0, 0, 0, 1, 0, "A"⟩, by decide, by decide, by decide⟩

/-- Violation: with the option `-b` the patch of the second changed executable takes the place of that of the first. -/
theorem C96_violated_option : ∃ (e f : BuiltExec Nat String), e.Due ∧ f.Due ∧ e.id ≠ f.id ∧
    (buildKpatches (some 5) (fun _ => none) [e, f]).2 = true ∧
    ∀ b, (buildKpatches (some 5) (fun _ => none) [e, f]).1 b ≠ some e.patch := by
  refine ⟨⟨true, some 10, 0, 0, 0, 0, 0, "A"⟩, ⟨true, some 11, 0, 0, 0, 0, 0, "B"⟩, ⟨rfl, rfl, rfl, rfl, rfl, rfl⟩,
    ⟨rfl, rfl, rfl, rfl, rfl, rfl⟩, by decide, by decide, fun b => ?_⟩
  simp only [buildKpatches]
  by_cases h : b = 5 <;> simp [h]

end Verif
