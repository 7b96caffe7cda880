import Verif.Props.Dbgfilter
import Verif.Props.Sections
/-
C57: removing a debug section leaves the lines around it in their sections.
-/
namespace Verif

section Target

variable [AsmTarget]

/-- Line `l` continues a debug section that starts at line `j`: data all the way, then data or the `.previous` that ends
the section. -/
def Continues (o : DfOpts) (f : List Stmt) (j l : Nat) : Prop :=
  j < l ∧ (∃ x, f[j]? = some x ∧ DebugSect o x.1) ∧ (∀ k, j < k → k < l → ∃ x, f[k]? = some x ∧ SectData x.1) ∧
    ∃ x, f[l]? = some x ∧ (SectData x.1 ∨ parseCtype x.1 = .previous)

theorem sect_tok {s : List Byte} (h : parseCtype s = .sect) : firstTok s = lit ".section" := by
  rcases parseCtype_eq s with ⟨d, hd, h1, h2⟩ | ⟨_, h2⟩
  · have hw : ∀ d ∈ asmDirectives, d.1 = .sect → d.2 = lit ".section" := by decide +kernel
    rw [← h1]
    exact hw d hd (h2.symm.trans h)
  · rw [h] at h2
    simp at h2

theorem sect_not_data {s : List Byte} (h : parseCtype s = .sect) : ¬ SectData s ∧ parseCtype s ≠ .previous := by
  refine ⟨?_, by rw [h]; simp⟩
  unfold SectData
  rw [h, sect_tok h]
  have : lit ".section" ∉ dataDefs := by unfold dataDefs; cases AsmTarget.isa <;> decide +kernel
  simp [this]

theorem sect_not_debugLine {o : DfOpts} {s : List Byte} (h : parseCtype s = .sect) : ¬ DebugLine o s := by
  unfold DebugLine
  rw [sect_tok h]
  rintro (⟨p, hp, hq⟩ | hq | hq | hq)
  · have : ∀ p ∈ [lit ".LCOLD", lit ".LHOT", lit "#", lit ".LBB", lit ".LBE", lit ".LFB", lit ".LCFI", lit ".LFE", lit ".LVL",
      lit ".Ltext", lit ".Letext"], ¬ p <+: lit ".section" := by decide +kernel
    exact this p hp hq
  · exact absurd hq (by decide +kernel)
  · exact absurd hq.1 (by decide +kernel)
  · exact absurd hq.2 (by decide +kernel)

theorem previous_not_data {s : List Byte} (h : parseCtype s = .previous) : ¬ SectData s := by
  have ht : firstTok s = lit ".previous" := by
    rcases parseCtype_eq s with ⟨d, hd, h1, h2⟩ | ⟨_, h2⟩
    · have hw : ∀ d ∈ asmDirectives, d.1 = .previous → d.2 = lit ".previous" := by decide +kernel
      rw [← h1]
      exact hw d hd (h2.symm.trans h)
    · rw [h] at h2
      simp at h2
  unfold SectData
  rw [h, ht]
  have : lit ".previous" ∉ dataDefs := by unfold dataDefs; cases AsmTarget.isa <;> decide +kernel
  simp [this]

/-- The body of a section is skipped to its end. -/
theorem skipBody_max : ∀ (r : List Stmt) (i : Nat), (∀ k < i, ∃ x, r[k]? = some x ∧ SectData x.1) →
    (∃ x, r[i]? = some x ∧ (SectData x.1 ∨ parseCtype x.1 = .previous)) → i < skipBody r := by
  intro r
  induction r with
  | nil => rintro i _ ⟨x, hx, _⟩; simp at hx
  | cons y r ih =>
    obtain ⟨s, num⟩ := y
    intro i hk hi
    rw [skipBody]
    have hdata : SectData s → ¬ (parseCtype s ≠ .align ∧ parseCtype s ≠ .label ∧ parseCtype s ≠ .localLabel ∧
        isDataDef s = false) := by
      rintro (h | h | h | h) ⟨h1, h2, h3, h4⟩
      · exact h1 h
      · exact h2 h
      · exact h3 h
      · rw [← isDataDef_iff] at h
        rw [h] at h4
        cases h4
    cases i with
    | zero =>
      obtain ⟨x, hx, h⟩ := hi
      simp only [List.getElem?_cons_zero, Option.some.injEq] at hx
      subst hx
      split
      · omega
      · rename_i hp
        rw [if_neg (hdata (h.resolve_right hp))]
        omega
    | succ i =>
      obtain ⟨x, hx, h⟩ := hk 0 (by omega)
      simp only [List.getElem?_cons_zero, Option.some.injEq] at hx
      subst hx
      rw [if_neg (fun hp => previous_not_data hp h), if_neg (hdata h)]
      have := ih i (fun k hk' => by
        have := hk (k + 1) (by omega)
        simpa using this) (by simpa using hi)
      omega

/-- Sections are skipped to their ends. -/
theorem skipSection_max (pre : List Byte) : ∀ (n : Nat) (f : List Stmt), f.length ≤ n → ∀ j < skipSection pre f,
    (∃ x, f[j]? = some x ∧ parseCtype x.1 = .sect) →
    (∀ k, j < k → k < skipSection pre f → ∃ x, f[k]? = some x ∧ SectData x.1) →
    ¬ ∃ x, f[skipSection pre f]? = some x ∧ (SectData x.1 ∨ parseCtype x.1 = .previous) := by
  intro n
  induction n with
  | zero =>
    intro f hf j hj
    have : f = [] := List.length_eq_zero_iff.mp (by omega)
    subst this
    rw [skipSection] at hj
    omega
  | succ n ih =>
    intro f hf
    match f with
    | [] => intro j hj; rw [skipSection] at hj; omega
    | (s, num) :: r =>
      intro j hj hs hk hl
      rw [skipSection] at hj hk hl
      split at hj
      case isFalse => omega
      rename_i hst
      rw [if_pos hst] at hk hl
      simp only [List.length_cons] at hf
      have hget : ∀ i, ((s, num) :: r)[i + skipBody r + 1]? = (r.drop (skipBody r))[i]? := by
        intro i
        rw [List.getElem?_cons_succ, List.getElem?_drop, Nat.add_comm]
      by_cases hj0 : j = 0
      · subst hj0
        by_cases hz : skipSection pre (r.drop (skipBody r)) = 0
        · rw [hz, Nat.zero_add] at hk hl
          have := skipBody_max r (skipBody r) (fun k hk' => by
            have := hk (k + 1) (by omega) (by omega)
            simpa using this) (by simpa using hl)
          omega
        · -- the line after the body is a section start, not data
          have hx := (skipSection_spec pre _ (r.drop (skipBody r)) (Nat.le_refl _)).2 0 (by omega)
          obtain ⟨j', hj', ⟨x, hx1, hx2⟩, _, _⟩ := hx
          have : j' = 0 := by omega
          subst this
          obtain ⟨y, hy1, hy2⟩ := hk (0 + skipBody r + 1) (by omega) (by omega)
          rw [hget, hx1] at hy1
          cases hy1
          exact (sect_not_data hx2.1).1 hy2
      · by_cases hjb : j < skipBody r + 1
        · obtain ⟨x, hx1, hx2⟩ := hs
          obtain ⟨⟨y, hy1, hy2⟩, _⟩ := skipBody_spec r (j - 1) (by omega)
          have : ((s, num) :: r)[j]? = r[j - 1]? := by
            rw [List.getElem?_cons, if_neg hj0]
          rw [this, hy1] at hx1
          cases hx1
          have := sect_not_data hx2
          rcases hy2 with h | h
          · exact this.1 h
          · exact this.2 h
        · refine ih (r.drop (skipBody r)) (by rw [List.length_drop]; omega) (j - (skipBody r + 1)) (by omega) ?_ ?_ ?_
          · obtain ⟨x, hx1, hx2⟩ := hs
            exact ⟨x, by rw [← hget, show j - (skipBody r + 1) + skipBody r + 1 = j by omega]; exact hx1, hx2⟩
          · intro k h1 h2
            obtain ⟨x, hx1, hx2⟩ := hk (k + skipBody r + 1) (by omega) (by omega)
            exact ⟨x, by rw [← hget]; exact hx1, hx2⟩
          · obtain ⟨x, hx1, hx2⟩ := hl
            exact ⟨x, by rw [← hget]; exact hx1, hx2⟩

/-- What is left after skipping some lines does not continue a debug section among them. -/
theorem skip_stops (o : DfOpts) (s : List Byte) (num : Nat) (r : List Stmt) (m : Nat)
    (hm : debugFilterSkip o ((s, num) :: r) s = m) (hp : 0 < m) (j : Nat) (hj : j < m)
    (hc : Continues o ((s, num) :: r) j m) : j = 1 ∧ LtextAt ((s, num) :: r) 0 := by
  obtain ⟨_, ⟨x, hx1, hx2⟩, hd, hl⟩ := hc
  have one : m = 1 → DebugLine o s → False := by
    intro h1 h2
    subst h1
    have : j = 0 := by omega
    subst this
    simp only [List.getElem?_cons_zero, Option.some.injEq] at hx1
    subst hx1
    exact sect_not_debugLine hx2.1 h2
  have sec : ∀ pre, m = skipSection pre ((s, num) :: r) → False := by
    intro pre h
    subst h
    exact skipSection_max pre _ _ (Nat.le_refl _) j hj ⟨x, hx1, hx2.1⟩ hd hl
  have dl : ∀ p ∈ [lit ".LCOLD", lit ".LHOT", lit "#", lit ".LBB", lit ".LBE", lit ".LFB", lit ".LCFI", lit ".LFE", lit ".LVL",
      lit ".Ltext", lit ".Letext"], p <+: firstTok s → DebugLine o s := fun p hp h => Or.inl ⟨p, hp, h⟩
  unfold debugFilterSkip at hm
  split at hm
  · rename_i c
    simp only [isColdHot, Bool.or_eq_true, tokStarts_iff] at c
    exact (one hm.symm (c.elim (dl _ (by simp)) (dl _ (by simp)))).elim
  split at hm
  · rename_i c
    simp only [isComment, tokStarts_iff] at c
    exact (one hm.symm (dl _ (by simp) c)).elim
  split at hm
  · rename_i c
    rw [isLocCmd, decide_eq_true_iff] at c
    exact (one hm.symm (Or.inr (Or.inl ((tokIs_iff s _).mp c)))).elim
  split at hm
  · rename_i c
    exfalso
    have : j = 0 := by omega
    subst this
    simp only [List.getElem?_cons_zero, Option.some.injEq] at hx1
    subst hx1
    unfold isFileCmd at c
    dsimp only at c
    have : ¬ kpstrcmpz (getToken (some s)).1 (lit ".file") = 0 := by
      rw [show (kpstrcmpz (getToken (some s)).1 (lit ".file") = 0 ↔ _) from tokIs_iff s _, sect_tok hx2.1]
      decide +kernel
    rw [if_pos this] at c
    cases c
  split at hm
  · rename_i c
    simp only [isDebugLbl, Bool.or_eq_true, tokStarts_iff] at c
    refine (one hm.symm ?_).elim
    rcases c with ((((c | c) | c) | c) | c) | c <;> exact dl _ (by simp) c
  split at hm
  · rename_i c
    simp only [isCfiCmd, Bool.and_eq_true, tokStarts_iff] at c
    exact (one hm.symm (Or.inr (Or.inr (Or.inr c)))).elim
  split at hm
  · rename_i c
    rcases skipLtext_spec o s num r with ⟨c7, _, _⟩ | ⟨c7, t1⟩ | ⟨c7, t1⟩
    · exact absurd c7 c
    · exact (one (by omega) t1).elim
    · rw [c7] at hm
      subst hm
      refine ⟨?_, t1⟩
      by_contra hj1
      have : j = 0 := by omega
      subst this
      obtain ⟨y, _, hy1, _, hy2, _⟩ := t1
      rw [hx1] at hy1
      cases hy1
      rw [sect_tok hx2.1] at hy2
      exact absurd hy2 (by decide +kernel)
  split at hm
  · exact (sec _ hm.symm).elim
  split at hm
  · exact (sec _ hm.symm).elim
  split at hm
  · exact (sec _ hm.symm).elim
  omega

/-- Line `l` continues a debug section only where `.text` and a text label around the section command hide it. -/
def OnlyHidden (o : DfOpts) (f : List Stmt) (l : Nat) : Prop := ∀ j, Continues o f j l → 0 < j ∧ LtextAt f (j - 1)

theorem filter_sections (o : DfOpts) (hnl : o.emitNewlines = false) (f : List Stmt) (hnum : ∀ x ∈ f, 0 < x.2) :
    ∀ (n l : Nat), f.length - l ≤ n → OnlyHidden o f l → ∀ out, debugFilterLoop o (f.drop l) = some out →
      ∃ K : List Nat, K.Pairwise (· < ·) ∧ (∀ i ∈ K, l ≤ i ∧ i < f.length) ∧ out = (K.map (writtenText f)).flatten ∧
        ∀ i ∈ K, OnlyHidden o f i := by
  intro n
  induction n with
  | zero =>
    intro l hl _ out h
    rw [List.drop_eq_nil_iff.mpr (by omega), debugFilterLoop] at h
    simp only [Option.some.injEq] at h
    subst h
    exact ⟨[], by simp, by simp, by simp, by simp⟩
  | succ n ih =>
    intro l hl hoh out h
    by_cases hlen : f.length ≤ l
    · rw [List.drop_eq_nil_iff.mpr hlen, debugFilterLoop] at h
      simp only [Option.some.injEq] at h
      subst h
      exact ⟨[], by simp, by simp, by simp, by simp⟩
    · obtain ⟨⟨s, num⟩, hx⟩ : ∃ x, f[l]? = some x := ⟨f[l]'(by omega), List.getElem?_eq_getElem (by omega)⟩
      have hd : f.drop l = (s, num) :: f.drop (l + 1) := by
        rw [List.getElem?_eq_some_iff] at hx
        obtain ⟨hx1, hx2⟩ := hx
        rw [List.drop_eq_getElem_cons (by omega), hx2]
      have hpos : 0 < num := hnum (s, num) (List.mem_of_getElem? hx)
      -- the lines from `l` on
      have before : ∀ (m j : Nat), 0 < m → j < l → Continues o f j (l + m) → 0 < j ∧ LtextAt f (j - 1) := by
        intro m j hm hj hc
        obtain ⟨h1, h2, h3, _⟩ := hc
        obtain ⟨x, hx1, hx2⟩ := h3 l hj (by omega)
        exact hoh j ⟨hj, h2, fun k hk1 hk2 => h3 k hk1 (by omega), x, hx1, Or.inl hx2⟩
      rw [hd, debugFilterLoop] at h
      dsimp only at h
      rcases skip_spec o s num (f.drop (l + 1)) with ⟨h0, hd1, hd2⟩ | ⟨hp, hle, hrem⟩
      · rw [if_pos h0] at h
        split at h
        · cases h
        · rename_i sep hsep
          rw [Option.map_eq_some_iff] at h
          obtain ⟨out', ho, rfl⟩ := h
          obtain ⟨K, k1, k2, k3, k5⟩ := ih (l + 1) (by omega) (by
            intro j hc
            by_cases hjl : j < l
            · exact before 1 j (by omega) hjl hc
            · obtain ⟨c1, ⟨x, c2, c3⟩, _⟩ := hc
              have : j = l := by omega
              subst this
              rw [hx] at c2
              cases c2
              exact absurd c3 hd2) out' ho
          refine ⟨l :: K, ?_, ?_, ?_, ?_⟩
          · rw [List.pairwise_cons]
            exact ⟨fun i hi => by have := k2 i hi; omega, k1⟩
          · intro i hi
            rcases List.mem_cons.mp hi with e | e
            · omega
            · have := k2 i e; omega
          · rw [List.map_cons, List.flatten_cons, ← k3, written_sep f l s num _ sep hd hpos hsep]
          · intro i hi
            rcases List.mem_cons.mp hi with e | e
            · subst e; exact hoh
            · exact k5 i e
      · rw [if_neg (by omega)] at h
        simp only [hnl, Bool.false_eq_true, if_false, List.nil_append, Option.map_id'] at h
        have hst := fun m hm => skip_stops o s num (f.drop (l + 1)) m hm
        generalize hn : debugFilterSkip o ((s, num) :: f.drop (l + 1)) s = m at *
        rw [List.drop_drop, show l + 1 + (m - 1) = l + m by omega] at h
        obtain ⟨K, k1, k2, k3, k5⟩ := ih (l + m) (by omega) (by
          intro j hc
          by_cases hjl : j < l
          · exact before m j hp hjl hc
          · have hc' : Continues o ((s, num) :: f.drop (l + 1)) (j - l) m := by
              rw [← hd]
              obtain ⟨c1, c2, c3, c4⟩ := hc
              refine ⟨by omega, ?_, ?_, ?_⟩
              · rw [List.getElem?_drop, show l + (j - l) = j by omega]; exact c2
              · intro k hk1 hk2
                rw [List.getElem?_drop]
                exact c3 _ (by omega) (by omega)
              · rw [List.getElem?_drop]; exact c4
            obtain ⟨e1, e2⟩ := hst m rfl hp (j - l) (by have := hc.1; omega) hc'
            refine ⟨by omega, ?_⟩
            rw [← hd] at e2
            obtain ⟨x, y, a, b, c⟩ := e2
            rw [List.getElem?_drop] at a b
            rw [show j - 1 = l by omega]
            exact ⟨x, y, a, b, c⟩) out h
        exact ⟨K, k1, fun i hi => by have := k2 i hi; omega, k3, k5⟩

/-- C57 (partial: see C57_violated_section and C57_violated_ltext).  A section with debug information is removed with all of
its data and with the `.previous` that ends it: no statement that is written is data of such a section or its `.previous`,
as long as only alignment, labels and data come between.  The exception is a section command between `.text` and a text
label. -/
theorem C57_sections_partial (o : DfOpts) (hnl : o.emitNewlines = false) (f : List Stmt) (hnum : ∀ x ∈ f.drop 1, 0 < x.2)
    (out : List Byte) (h : debugFilter o f = some out) :
    ∃ K : List Nat, K.Pairwise (· < ·) ∧ (∀ i ∈ K, i < (f.drop 1).length) ∧
      out = (K.map (writtenText (f.drop 1))).flatten ∧
      ∀ i ∈ K, ∀ j, Continues o (f.drop 1) j i → 0 < j ∧ LtextAt (f.drop 1) (j - 1) := by
  obtain ⟨K, k1, k2, k3, k5⟩ := filter_sections o hnl (f.drop 1) hnum _ 0 (Nat.le_refl _)
    (fun j hc => absurd hc.1 (Nat.not_lt_zero _)) out h
  exact ⟨K, k1, fun i hi => (k2 i hi).2, k3, k5⟩

end Target

section X86

attribute [local instance] x86Asm

/-- The debug section of an example continues to its `.previous`. -/
example : Continues dfNone [(lit "\t.section .debug_info,\"\"", 4), (lit "\t.long 1", 5), (lit "\t.previous", 6)] 0 2 := by
  refine ⟨by omega, ⟨_, rfl, by decide +kernel, Or.inl (by decide +kernel)⟩, fun k h1 h2 => ?_, _, rfl, Or.inr (by decide +kernel)⟩
  have : k = 1 := by omega
  subst this
  exact ⟨_, rfl, Or.inr (Or.inr (Or.inr (by decide +kernel)))⟩

end X86

end Verif
