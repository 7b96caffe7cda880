import Verif.Model.Attach
/-
C24: all threads are stopped before patching.
-/
namespace Verif

theorem attachNew_mem {ok : Nat → Bool} : ∀ (ps attached attached' : List Nat),
    attachNew ok attached ps = some attached' →
    (∀ p ∈ attached, p ∈ attached') ∧ (∀ p ∈ ps, p ∈ attached') ∧
    (∀ p ∈ attached', p ∈ attached ∨ (p ∈ ps ∧ ok p = true)) := by
  intro ps
  induction ps with
  | nil =>
    intro attached attached' h
    simp only [attachNew, Option.some.injEq] at h
    subst h
    exact ⟨fun _ h => h, by simp, fun _ h => Or.inl h⟩
  | cons p ps ih =>
    intro attached attached' h
    unfold attachNew at h
    split at h
    · rename_i hc
      obtain ⟨h1, h2, h3⟩ := ih _ _ h
      refine ⟨h1, ?_, fun q hq => (h3 q hq).imp id fun h => ⟨by simp [h.1], h.2⟩⟩
      intro q hq
      rcases List.mem_cons.mp hq with rfl | hq
      · exact h1 _ (by simpa using hc)
      · exact h2 q hq
    · split at h
      · rename_i hok
        obtain ⟨h1, h2, h3⟩ := ih _ _ h
        refine ⟨fun q hq => h1 q (by simp [hq]), ?_, ?_⟩
        · intro q hq
          rcases List.mem_cons.mp hq with rfl | hq
          · exact h1 _ (by simp)
          · exact h2 q hq
        · intro q hq
          rcases h3 q hq with h | h
          · simp only [List.mem_append, List.mem_cons, List.not_mem_nil, or_false] at h
            rcases h with h | rfl
            · exact Or.inl h
            · exact Or.inr ⟨by simp, hok⟩
          · exact Or.inr ⟨by simp [h.1], h.2⟩
      · simp at h

theorem attachLoop_ok (e : AttachEnv) (hmono : ∀ k l l', e.scan k = some l → e.scan (k + 1) = some l' → l <+: l') :
    ∀ (left n prev : Nat) (attached : List Nat) (r : List Nat × List Nat),
      (n = 0 ∧ prev = 0 ∨ ∃ k l, n = k + 1 ∧ e.scan k = some l ∧ prev = l.length ∧ ∀ p ∈ l, p ∈ attached) →
      attachLoop e left n prev attached = some r →
      (∀ p ∈ attached, p ∈ r.1) ∧ (∀ p ∈ r.2, p ∈ r.1) ∧
      (∃ k l, e.scan k = some l ∧ l = r.2 ∧ e.scan (k + 1) = some r.2) := by
  intro left
  induction left with
  | zero => intro n prev attached r _ h; simp [attachLoop] at h
  | succ left ih =>
    intro n prev attached r hinv h
    unfold attachLoop at h
    cases hs : e.scan n with
    | none => rw [hs] at h; simp at h
    | some pids =>
      rw [hs] at h
      dsimp only at h
      split at h
      · rename_i hc
        simp only [Option.some.injEq] at h
        subst h
        rcases hinv with ⟨h0, -⟩ | ⟨k, l, hn, hl, hp, hall⟩
        · exact absurd h0 hc.1
        · subst hn
          have hpre := hmono k l pids hl hs
          have heq : l = pids := hpre.eq_of_length (by omega)
          subst heq
          exact ⟨fun _ h => h, hall, k, l, hl, rfl, hs⟩
      · split at h
        · simp at h
        · cases ha : attachNew (e.attach n) attached (pids.drop prev) with
          | none => rw [ha] at h; simp at h
          | some attached' =>
            rw [ha] at h
            dsimp only at h
            obtain ⟨m1, m2, m3⟩ := attachNew_mem _ _ _ ha
            have hall : ∀ p ∈ pids, p ∈ attached' := by
              intro p hp
              rcases hinv with ⟨-, h0⟩ | ⟨k, l, hn, hl, hpv, hall⟩
              · subst h0; exact m2 p (by simpa using hp)
              · subst hn
                obtain ⟨t, ht⟩ := hmono k l pids hl hs
                rw [← ht] at hp
                rcases List.mem_append.mp hp with hp | hp
                · exact m1 p (hall p hp)
                · apply m2
                  rw [hpv, ← ht, List.drop_left]
                  exact hp
            obtain ⟨g1, g2, g3⟩ := ih (n + 1) pids.length attached' r (Or.inr ⟨n, pids, rfl, hs, rfl, hall⟩) h
            exact ⟨fun p hp => g1 p (m1 p hp), g2, g3⟩

/-- C24, partial: threads may be created at any time but none exits while the tool attaches (so that each scan of
the task directory lists the earlier threads first).  If attaching succeeds, the last two scans agree and
every thread in them is attached, i.e. stopped; since all of them were stopped before the last scan, no
further thread can appear.  Missing: threads that exit during attaching (`C24_violated_*`). -/
theorem C24_all_threads_stopped_partial (e : AttachEnv) (attached : List Nat) (r : List Nat × List Nat)
    (hmono : ∀ k l l', e.scan k = some l → e.scan (k + 1) = some l' → l <+: l')
    (h : processAttach e attached = some r) :
    (∀ p ∈ attached, p ∈ r.1) ∧ (∀ p ∈ r.2, p ∈ r.1) ∧
    ∃ k l, e.scan k = some l ∧ l = r.2 ∧ e.scan (k + 1) = some r.2 := by
  unfold processAttach at h
  split at h
  · simp at h
  · cases hl : attachLoop e 3 0 0 attached with
    | none => rw [hl] at h; simp at h
    | some q =>
      rw [hl] at h
      dsimp only at h
      split at h
      · simp only [Option.some.injEq] at h
        subst h
        exact attachLoop_ok e hmono 3 0 0 attached q (Or.inl ⟨rfl, rfl⟩) hl
      · simp at h

/-- The number of attempts is bounded: a process that keeps creating threads makes the command fail after the
third scan instead of being patched with running threads. -/
theorem C24_gives_up_when_threads_keep_coming (e : AttachEnv) (attached : List Nat)
    (hgrow : ∀ k l l', e.scan k = some l → e.scan (k + 1) = some l' → l.length < l'.length) :
    processAttach e attached = none := by
  have key : ∀ (left n prev : Nat) (at' : List Nat),
      (n = 0 ∨ ∃ k l, n = k + 1 ∧ e.scan k = some l ∧ prev = l.length) → attachLoop e left n prev at' = none := by
    intro left
    induction left with
    | zero => intros; rfl
    | succ left ih =>
      intro n prev at' hinv
      unfold attachLoop
      cases hs : e.scan n with
      | none => rfl
      | some pids =>
        dsimp only
        have : ¬ (n ≠ 0 ∧ prev = pids.length) := by
          rintro ⟨h0, hp⟩
          rcases hinv with h | ⟨k, l, hn, hl, hpv⟩
          · exact h0 h
          · subst hn
            have := hgrow k l pids hl hs
            omega
        rw [if_neg this]
        split
        · rfl
        · cases attachNew (e.attach n) at' (pids.drop prev) with
          | none => rfl
          | some at'' => exact ih _ _ _ (Or.inr ⟨n, pids, rfl, hs, rfl⟩)
  unfold processAttach
  rw [key 3 0 0 attached (Or.inl rfl)]
  simp

/-- A run: a second thread appears after the first scan. -/
example : processAttach ⟨true, fun k => some (if k = 0 then [7] else [7, 9]), fun _ _ => true, false, true⟩ [] =
    some ([7, 9], [7, 9]) := by decide

/-- C24 is false when a thread exits and another one is created between two scans: the counts agree, the new
thread 13 is never attached and keeps running. -/
theorem C24_violated_same_count :
    processAttach ⟨true, fun k => some (if k = 0 then [10, 11, 12] else [10, 11, 13]), fun _ _ => true, false, true⟩ [] =
      some ([10, 11, 12], [10, 11, 13]) := by decide

/-- C24 is false also when the counts differ: only the entries past the previous count are attached, so that
thread 13, which moved into the place of the exited thread 11, is skipped. -/
theorem C24_violated_shifted_list :
    processAttach ⟨true, fun k => some (if k = 0 then [10, 11, 12] else [10, 12, 13, 14]), fun _ _ => true, false, true⟩ [] =
      some ([10, 11, 12, 14], [10, 12, 13, 14]) := by decide

end Verif
