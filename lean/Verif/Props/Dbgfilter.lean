import Verif.Spec.Dbgfilter
import Verif.Props.Rename
/-
C57: debug filtering keeps the code.
-/
namespace Verif

section Target

variable [AsmTarget]

theorem tokStarts_iff (s p : List Byte) : tokStarts s p = true ↔ p <+: firstTok s := by
  unfold tokStarts firstTok
  rw [decide_eq_true_iff, C41_prefix _ (getToken_ok _)]

theorem tokNot_iff (s p : List Byte) : kpstrncmpz (getToken (some s)).1 p ≠ 0 ↔ ¬ p <+: firstTok s :=
  not_congr (C41_prefix _ (getToken_ok _) p)

theorem tokIs_iff (s p : List Byte) : kpstrcmpz (getToken (some s)).1 p = 0 ↔ firstTok s = p := by
  unfold kpstrcmpz firstTok
  rw [kpstrcmp_zero (getToken_ok _) (kpz_ok _), kpz_text]

theorem isDataDef_iff (s : List Byte) : isDataDef s = true ↔ firstTok s ∈ dataDefs := by
  unfold isDataDef
  rw [List.any_eq_true]
  simp only [decide_eq_true_eq]
  constructor
  · rintro ⟨d, hd, h⟩
    rw [(tokIs_iff s d).mp h]
    exact hd
  · intro h
    exact ⟨_, h, (tokIs_iff s _).mpr rfl⟩

theorem isSectionStart_iff (s p : List Byte) : isSectionStart s p = true ↔ parseCtype s = .sect ∧ p <+: secondTok s := by
  unfold isSectionStart secondTok
  split
  · rename_i h
    dsimp only
    rw [decide_eq_true_iff, C41_prefix _ (getToken_ok _)]
    simp [h]
  · rename_i h
    simp [h]

theorem skipBody_spec : ∀ (r : List Stmt) (i : Nat), i < skipBody r →
    (∃ x, r[i]? = some x ∧ (SectData x.1 ∨ parseCtype x.1 = .previous)) ∧
      ∀ k < i, ∃ x, r[k]? = some x ∧ SectData x.1 := by
  intro r
  induction r with
  | nil => intro i hi; simp [skipBody] at hi
  | cons x r ih =>
    obtain ⟨s, num⟩ := x
    intro i hi
    rw [skipBody] at hi
    split at hi
    · rename_i hp
      have : i = 0 := by omega
      subst this
      exact ⟨⟨(s, num), rfl, Or.inr hp⟩, fun k hk => by omega⟩
    · split at hi
      · omega
      · rename_i _ hd
        have hd' : SectData s := by
          unfold SectData
          rw [← isDataDef_iff]
          by_cases h1 : parseCtype s = .align
          · exact Or.inl h1
          · by_cases h2 : parseCtype s = .label
            · exact Or.inr (Or.inl h2)
            · by_cases h3 : parseCtype s = .localLabel
              · exact Or.inr (Or.inr (Or.inl h3))
              · refine Or.inr (Or.inr (Or.inr ?_))
                by_cases h4 : isDataDef s = true
                · exact h4
                · exact absurd ⟨h1, h2, h3, by simpa using h4⟩ hd
        cases i with
        | zero => exact ⟨⟨(s, num), rfl, Or.inl hd'⟩, fun k hk => by omega⟩
        | succ i =>
          obtain ⟨h1, h2⟩ := ih i (by omega)
          refine ⟨by simpa using h1, fun k hk => ?_⟩
          cases k with
          | zero => exact ⟨(s, num), rfl, hd'⟩
          | succ k => simpa using h2 k (by omega)

theorem skipBody_le (r : List Stmt) : skipBody r ≤ r.length := by
  by_cases h : skipBody r = 0
  · omega
  · obtain ⟨⟨x, hx, _⟩, _⟩ := skipBody_spec r (skipBody r - 1) (by omega)
    have := (List.getElem?_eq_some_iff.mp hx).1
    omega

/-- Line `l` is in a section started by a line with `P`. -/
def SectRegion (P : List Byte → Prop) (f : List Stmt) (l : Nat) : Prop :=
  ∃ j ≤ l, (∃ x, f[j]? = some x ∧ P x.1) ∧ (∀ k, j < k → k < l → ∃ x, f[k]? = some x ∧ SectData x.1) ∧
    (l = j ∨ ∃ x, f[l]? = some x ∧ (SectData x.1 ∨ parseCtype x.1 = .previous))

theorem sectRegion_drop {P : List Byte → Prop} {f : List Stmt} {n l : Nat} (h : SectRegion P (f.drop n) l) :
    SectRegion P f (n + l) := by
  obtain ⟨j, hj, h1, h2, h3⟩ := h
  refine ⟨n + j, by omega, ?_, ?_, ?_⟩
  · simpa [List.getElem?_drop] using h1
  · intro k hk1 hk2
    have := h2 (k - n) (by omega) (by omega)
    rw [List.getElem?_drop, show n + (k - n) = k by omega] at this
    exact this
  · rcases h3 with e | h3
    · exact Or.inl (by omega)
    · right; simpa [List.getElem?_drop] using h3

theorem skipSection_spec (pre : List Byte) : ∀ (n : Nat) (f : List Stmt), f.length ≤ n → skipSection pre f ≤ f.length ∧
    ∀ k < skipSection pre f, SectRegion (fun s => parseCtype s = .sect ∧ pre <+: secondTok s) f k := by
  intro n
  induction n with
  | zero =>
    intro f hf
    have : f = [] := List.length_eq_zero_iff.mp (by omega)
    subst this
    rw [skipSection]
    simp
  | succ n ih =>
    intro f hf
    match f with
    | [] => rw [skipSection]; simp
    | (s, num) :: r =>
      rw [skipSection]
      split
      · rename_i hs
        rw [isSectionStart_iff] at hs
        have hb := skipBody_le r
        simp only [List.length_cons] at hf
        obtain ⟨i1, i2⟩ := ih (r.drop (skipBody r)) (by rw [List.length_drop]; omega)
        rw [List.length_drop] at i1
        refine ⟨by simp only [List.length_cons]; omega, ?_⟩
        intro k hk
        by_cases h0 : k = 0
        · subst h0
          exact ⟨0, Nat.le_refl _, ⟨_, rfl, hs⟩, fun _ _ _ => by omega, Or.inl rfl⟩
        · by_cases h1 : k < skipBody r + 1
          · obtain ⟨a, b⟩ := skipBody_spec r (k - 1) (by omega)
            refine ⟨0, Nat.zero_le _, ⟨_, rfl, hs⟩, ?_, Or.inr ?_⟩
            · intro i hi1 hi2
              have := b (i - 1) (by omega)
              rw [List.getElem?_cons, if_neg (by omega)]
              exact this
            · rw [List.getElem?_cons, if_neg h0]
              exact a
          · have := i2 (k - (skipBody r + 1)) (by omega)
            have h2 : SectRegion (fun s => parseCtype s = .sect ∧ pre <+: secondTok s)
                (((s, num) :: r).drop (skipBody r + 1)) (k - (skipBody r + 1)) := by simpa using this
            have := sectRegion_drop h2
            rwa [show skipBody r + 1 + (k - (skipBody r + 1)) = k by omega] at this
      · simp

theorem skipSection_zero (pre : List Byte) (s : List Byte) (num : Nat) (r : List Stmt)
    (h : skipSection pre ((s, num) :: r) = 0) : ¬ (parseCtype s = .sect ∧ pre <+: secondTok s) := by
  rw [skipSection] at h
  split at h
  · omega
  · rename_i hs
    rwa [isSectionStart_iff] at hs

theorem removable_region {o : DfOpts} {f : List Stmt} {l : Nat} (P : List Byte → Prop) (hP : ∀ s, P s → DebugSect o s)
    (h : SectRegion P f l) : Removable o f l := by
  obtain ⟨j, hj, ⟨x, hx, hp⟩, h2, h3⟩ := h
  rcases h3 with e | h3
  · subst e
    exact Or.inl ⟨x, hx, Or.inr (hP _ hp)⟩
  · by_cases e : l = j
    · subst e
      exact Or.inl ⟨x, hx, Or.inr (hP _ hp)⟩
    · exact Or.inr ⟨j, by omega, ⟨x, hx, hP _ hp⟩, h2, h3⟩

theorem removable_drop {o : DfOpts} {f : List Stmt} {n l : Nat} (h : Removable o (f.drop n) l) :
    Removable o f (n + l) := by
  rcases h with h | ⟨j, hj, h1, h2, h3⟩
  · exact Or.inl (by simpa [List.getElem?_drop] using h)
  · refine Or.inr ⟨n + j, by omega, by simpa [List.getElem?_drop] using h1, ?_, by simpa [List.getElem?_drop] using h3⟩
    intro k hk1 hk2
    have := h2 (k - n) (by omega) (by omega)
    rw [List.getElem?_drop, show n + (k - n) = k by omega] at this
    exact this

/-- Removing lines because of `skip_ltext_lbl`. -/
theorem skipLtext_spec (o : DfOpts) (s : List Byte) (num : Nat) (r : List Stmt) :
    (skipLtextLbl ((s, num) :: r) s = 0 ∧ ¬ (lit ".Ltext" <+: firstTok s) ∧ ¬ (lit ".Letext" <+: firstTok s)) ∨
    (skipLtextLbl ((s, num) :: r) s = 1 ∧ DebugLine o s) ∨
    (skipLtextLbl ((s, num) :: r) s = 2 ∧ LtextAt ((s, num) :: r) 0) := by
  have hne : ∀ p : List Byte, ¬ (p <+: lit ".text") → firstTok s = lit ".text" → ¬ p <+: firstTok s := by
    intro p h e; rw [e]; exact h
  unfold skipLtextLbl
  by_cases ht : kpstrcmpz (getToken (some s)).1 (lit ".text") = 0
  · have ht' := (tokIs_iff s _).mp ht
    simp only [ht, if_true]
    have e2 : (((s, num) :: r)[1 + 1]?) = ((s, num) :: r)[2]? := rfl
    rw [e2]
    cases hg : ((s, num) :: r)[2]? with
    | none =>
      left
      refine ⟨?_, hne _ (by decide +kernel) ht', hne _ (by decide +kernel) ht'⟩
      decide +kernel
    | some y =>
      simp only [Option.map_some]
      split
      · left
        exact ⟨rfl, hne _ (by decide +kernel) ht', hne _ (by decide +kernel) ht'⟩
      · rename_i hc
        right; right
        refine ⟨rfl, (s, num), y, rfl, hg, ht', ?_⟩
        rw [tokNot_iff, tokNot_iff] at hc
        by_cases h1 : lit ".Ltext" <+: firstTok y.1
        · exact Or.inl h1
        · right
          by_cases h2 : lit ".Letext" <+: firstTok y.1
          · exact h2
          · exact absurd ⟨h1, h2⟩ hc
  · simp only [ht, if_false, Nat.add_zero, List.getElem?_cons_zero, Option.map_some, Nat.zero_add]
    split
    · rename_i hc
      rw [tokNot_iff, tokNot_iff] at hc
      exact Or.inl ⟨rfl, hc⟩
    · rename_i hc
      rw [tokNot_iff, tokNot_iff] at hc
      right; left
      refine ⟨rfl, Or.inl ?_⟩
      by_cases h1 : lit ".Ltext" <+: firstTok s
      · exact ⟨_, by simp, h1⟩
      · refine ⟨lit ".Letext", by simp, ?_⟩
        by_cases h2 : lit ".Letext" <+: firstTok s
        · exact h2
        · exact absurd ⟨h1, h2⟩ hc

/-- What debug_filter_skip decides. -/
theorem skip_spec (o : DfOpts) (s : List Byte) (num : Nat) (r : List Stmt) :
    (debugFilterSkip o ((s, num) :: r) s = 0 ∧ ¬ DebugLine o s ∧ ¬ DebugSect o s) ∨
    (0 < debugFilterSkip o ((s, num) :: r) s ∧ debugFilterSkip o ((s, num) :: r) s ≤ r.length + 1 ∧
      ((∀ k < debugFilterSkip o ((s, num) :: r) s, Removable o ((s, num) :: r) k) ∨
        (debugFilterSkip o ((s, num) :: r) s = 2 ∧ LtextAt ((s, num) :: r) 0))) := by
  have one : ∀ n : Nat, n = 1 → DebugLine o s → (0 < n ∧ n ≤ r.length + 1 ∧
      ((∀ k < n, Removable o ((s, num) :: r) k) ∨ (n = 2 ∧ LtextAt ((s, num) :: r) 0))) := by
    rintro n rfl h
    refine ⟨by omega, by omega, Or.inl fun k hk => ?_⟩
    have : k = 0 := by omega
    subst this
    exact Or.inl ⟨_, rfl, Or.inl h⟩
  have sec : ∀ pre : List Byte, (∀ s, (parseCtype s = .sect ∧ pre <+: secondTok s) → DebugSect o s) → ∀ n : Nat,
      n = skipSection pre ((s, num) :: r) → n ≠ 0 → (0 < n ∧ n ≤ r.length + 1 ∧
      ((∀ k < n, Removable o ((s, num) :: r) k) ∨ (n = 2 ∧ LtextAt ((s, num) :: r) 0))) := by
    rintro pre hpre n rfl h
    obtain ⟨h1, h2⟩ := skipSection_spec pre _ ((s, num) :: r) (Nat.le_refl _)
    exact ⟨by omega, h1, Or.inl fun k hk => removable_region _ hpre (h2 k hk)⟩
  unfold debugFilterSkip
  by_cases c1 : isColdHot s = true
  · rw [if_pos c1]
    refine Or.inr (one 1 rfl (Or.inl ?_))
    simp only [isColdHot, Bool.or_eq_true, tokStarts_iff] at c1
    rcases c1 with c | c
    · exact ⟨_, by simp, c⟩
    · exact ⟨lit ".LHOT", by simp, c⟩
  rw [if_neg c1]
  by_cases c2 : isComment s = true
  · rw [if_pos c2]
    refine Or.inr (one 1 rfl (Or.inl ?_))
    simp only [isComment, tokStarts_iff] at c2
    exact ⟨lit "#", by simp, c2⟩
  rw [if_neg c2]
  by_cases c3 : isLocCmd s = true
  · rw [if_pos c3]
    refine Or.inr (one 1 rfl (Or.inr (Or.inl ?_)))
    rw [isLocCmd, decide_eq_true_iff] at c3
    exact (tokIs_iff s _).mp c3
  rw [if_neg c3]
  have hfile : isFileCmd s = true ↔
      (firstTok s = lit ".file" ∧ ∃ c r, (getToken (some s)).2 = some (c :: r) ∧ isDigitChar c = true) := by
    unfold isFileCmd
    dsimp only
    by_cases hf : kpstrcmpz (getToken (some s)).1 (lit ".file") = 0
    · rw [if_neg (by simpa using hf)]
      have hf' := (tokIs_iff s _).mp hf
      cases hr : (getToken (some s)).2 with
      | none => simp
      | some q =>
        cases q with
        | nil => simp [isDigitChar]
        | cons c q => simp [hf']
    · rw [if_pos hf]
      have hf' : ¬ firstTok s = lit ".file" := fun h => hf ((tokIs_iff s _).mpr h)
      simp [hf']
  by_cases c4 : isFileCmd s = true
  · rw [if_pos c4]
    exact Or.inr (one 1 rfl (Or.inr (Or.inr (Or.inl (hfile.mp c4)))))
  rw [if_neg c4]
  by_cases c5 : isDebugLbl s = true
  · rw [if_pos c5]
    refine Or.inr (one 1 rfl (Or.inl ?_))
    simp only [isDebugLbl, Bool.or_eq_true, tokStarts_iff] at c5
    rcases c5 with ((((c | c) | c) | c) | c) | c
    · exact ⟨lit ".LBB", by simp, c⟩
    · exact ⟨lit ".LBE", by simp, c⟩
    · exact ⟨lit ".LFB", by simp, c⟩
    · exact ⟨lit ".LCFI", by simp, c⟩
    · exact ⟨lit ".LFE", by simp, c⟩
    · exact ⟨lit ".LVL", by simp, c⟩
  rw [if_neg c5]
  by_cases c6 : (o.skipCfi && isCfiCmd s) = true
  · rw [if_pos c6]
    simp only [isCfiCmd, Bool.and_eq_true, tokStarts_iff] at c6
    exact Or.inr (one 1 rfl (Or.inr (Or.inr (Or.inr c6))))
  rw [if_neg c6]
  rcases skipLtext_spec o s num r with ⟨c7, t1, t2⟩ | ⟨c7, t1⟩ | ⟨c7, t1⟩
  rotate_left
  · rw [if_pos (by rw [c7]; decide), c7]
    exact Or.inr (one 1 rfl t1)
  · rw [if_pos (by rw [c7]; decide), c7]
    refine Or.inr ⟨by omega, ?_, Or.inr ⟨rfl, t1⟩⟩
    obtain ⟨_, y, _, hy, _⟩ := t1
    have := (List.getElem?_eq_some_iff.mp hy).1
    simp only [List.length_cons] at this
    omega
  rw [if_neg (by simpa using c7)]
  by_cases c8 : skipSection (lit ".debug_") ((s, num) :: r) ≠ 0
  · rw [if_pos c8]
    exact Or.inr (sec _ (fun s h => ⟨h.1, Or.inl h.2⟩) _ rfl c8)
  rw [if_neg c8]
  by_cases c9 : (o.skipEhFrame && skipSection (lit ".eh_frame") ((s, num) :: r) ≠ 0) = true
  · rw [if_pos c9]
    simp only [Bool.and_eq_true, decide_eq_true_eq] at c9
    exact Or.inr (sec _ (fun s h => ⟨h.1, Or.inr (Or.inl ⟨c9.1, h.2⟩)⟩) _ rfl c9.2)
  rw [if_neg c9]
  by_cases c10 : (o.skipGccExcept && skipSection (lit ".gcc_except_table") ((s, num) :: r) ≠ 0) = true
  · rw [if_pos c10]
    simp only [Bool.and_eq_true, decide_eq_true_eq] at c10
    exact Or.inr (sec _ (fun s h => ⟨h.1, Or.inr (Or.inr ⟨c10.1, h.2⟩)⟩) _ rfl c10.2)
  rw [if_neg c10]
  refine Or.inl ⟨rfl, ?_, ?_⟩
  · rintro (⟨p, hp, h⟩ | h | h | h)
    · simp only [isColdHot, isComment, isDebugLbl, Bool.or_eq_true, tokStarts_iff, not_or] at c1 c2 c5
      simp only [List.mem_cons, List.not_mem_nil, or_false] at hp
      rcases hp with rfl | rfl | rfl | rfl | rfl | rfl | rfl | rfl | rfl | rfl | rfl
      · exact c1.1 h
      · exact c1.2 h
      · exact c2 h
      · exact c5.1.1.1.1.1 h
      · exact c5.1.1.1.1.2 h
      · exact c5.1.1.1.2 h
      · exact c5.1.1.2 h
      · exact c5.1.2 h
      · exact c5.2 h
      · exact t1 h
      · exact t2 h
    · exact c3 (by rw [isLocCmd, decide_eq_true_iff]; exact (tokIs_iff s _).mpr h)
    · exact c4 (hfile.mpr h)
    · exact c6 (by simp only [isCfiCmd, Bool.and_eq_true, tokStarts_iff]; exact h)
  · rintro ⟨h0, h | h | h⟩
    · exact skipSection_zero _ s num r (by simpa using c8) ⟨h0, h⟩
    · refine skipSection_zero _ s num r ?_ ⟨h0, h.2⟩
      simpa [h.1] using c9
    · refine skipSection_zero _ s num r ?_ ⟨h0, h.2⟩
      simpa [h.1] using c10

theorem written_sep (f : List Stmt) (l : Nat) (s : List Byte) (num : Nat) (r : List Stmt) (sep : List Byte)
    (hd : f.drop l = (s, num) :: r) (hnum : 0 < num) (h : stmtSep s num (nextNum r) = some sep) :
    writtenText f l = s ++ sep := by
  have h0 : f[l]? = some (s, num) := by
    have := congrArg (fun x => x[0]?) hd
    simpa [List.getElem?_drop] using this
  have h1 : f[l + 1]? = r[0]? := by
    have := congrArg (fun x => x[1]?) hd
    simpa [List.getElem?_drop] using this
  unfold writtenText
  rw [h0, h1]
  simp only
  congr 1
  have l1 : lit "\n" = [10#8] := by decide +kernel
  have l2 : lit "; " = [59#8, 32#8] := by decide +kernel
  have key : ∀ nx : Nat, stmtSep s num nx = some sep →
      sep = if num ≠ nx then lit "\n" else if s.getLast? = some 58#8 then [] else lit "; " := by
    intro nx h
    unfold stmtSep at h
    by_cases hn : num = nx
    · by_cases he : s = []
      · simp [he, hn] at h
      · by_cases hl : s.getLast? = some 58#8
        · simp [he, hn, hl] at h
          simp [hn, hl, ← h]
        · simp [he, hn, hl] at h
          rw [if_neg (by simpa using hn), if_neg hl, ← h, l2]
    · simp [hn] at h
      rw [if_pos (by simpa using hn), ← h, l1]
  rw [key _ h]
  cases r with
  | nil =>
    have hn : ¬ num = nextNum [] := by show ¬ num = 0; omega
    simp [hn]
  | cons y r => by_cases hn : num = y.2 <;> simp [nextNum, hn]

theorem filter_spec (o : DfOpts) (hnl : o.emitNewlines = false) (f : List Stmt) (hnum : ∀ x ∈ f, 0 < x.2) :
    ∀ (n l : Nat), f.length - l ≤ n → ∀ out, debugFilterLoop o (f.drop l) = some out →
      ∃ K : List Nat, K.Pairwise (· < ·) ∧ (∀ i ∈ K, l ≤ i ∧ i < f.length) ∧ out = (K.map (writtenText f)).flatten ∧
        (∀ i, l ≤ i → i < f.length → i ∉ K → Removable o f i ∨ LtextAt f i ∨ (0 < i ∧ LtextAt f (i - 1))) ∧
        ∀ i ∈ K, ∀ x, f[i]? = some x → ¬ DebugLine o x.1 ∧ ¬ DebugSect o x.1 := by
  intro n
  induction n with
  | zero =>
    intro l hl out h
    rw [List.drop_eq_nil_iff.mpr (by omega), debugFilterLoop] at h
    simp only [Option.some.injEq] at h
    subst h
    exact ⟨[], by simp, by simp, by simp, fun i h1 h2 => by omega, by simp⟩
  | succ n ih =>
    intro l hl out h
    by_cases hlen : f.length ≤ l
    · rw [List.drop_eq_nil_iff.mpr hlen, debugFilterLoop] at h
      simp only [Option.some.injEq] at h
      subst h
      exact ⟨[], by simp, by simp, by simp, fun i h1 h2 => by omega, by simp⟩
    · obtain ⟨⟨s, num⟩, hx⟩ : ∃ x, f[l]? = some x := ⟨f[l]'(by omega), List.getElem?_eq_getElem (by omega)⟩
      have hd : f.drop l = (s, num) :: f.drop (l + 1) := by
        rw [List.getElem?_eq_some_iff] at hx
        obtain ⟨hx1, hx2⟩ := hx
        rw [List.drop_eq_getElem_cons (by omega), hx2]
      have hpos : 0 < num := hnum (s, num) (List.mem_of_getElem? hx)
      rw [hd, debugFilterLoop] at h
      dsimp only at h
      rcases skip_spec o s num (f.drop (l + 1)) with ⟨h0, hd1, hd2⟩ | ⟨hp, hle, hrem⟩
      · rw [if_pos h0] at h
        split at h
        · cases h
        · rename_i sep hsep
          rw [Option.map_eq_some_iff] at h
          obtain ⟨out', ho, rfl⟩ := h
          obtain ⟨K, k1, k2, k3, k4, k5⟩ := ih (l + 1) (by omega) out' ho
          refine ⟨l :: K, ?_, ?_, ?_, ?_, ?_⟩
          · rw [List.pairwise_cons]
            exact ⟨fun i hi => by have := k2 i hi; omega, k1⟩
          · intro i hi
            rcases List.mem_cons.mp hi with e | e
            · omega
            · have := k2 i e; omega
          · rw [List.map_cons, List.flatten_cons, ← k3, written_sep f l s num _ sep hd hpos hsep]
          · intro i h1 h2 h3
            rw [List.mem_cons, not_or] at h3
            exact k4 i (by omega) h2 h3.2
          · intro i hi x hix
            rcases List.mem_cons.mp hi with e | e
            · subst e
              rw [hx] at hix
              simp only [Option.some.injEq] at hix
              subst hix
              exact ⟨hd1, hd2⟩
            · exact k5 i e x hix
      · rw [if_neg (by omega)] at h
        simp only [hnl, Bool.false_eq_true, if_false, List.nil_append, Option.map_id'] at h
        generalize hn : debugFilterSkip o ((s, num) :: f.drop (l + 1)) s = m at *
        rw [List.drop_drop, show l + 1 + (m - 1) = l + m by omega] at h
        obtain ⟨K, k1, k2, k3, k4, k5⟩ := ih (l + m) (by omega) out h
        refine ⟨K, k1, fun i hi => by have := k2 i hi; omega, k3, ?_, k5⟩
        intro i h1 h2 h3
        by_cases him : i < l + m
        · rw [← hd] at hrem
          rcases hrem with hr | ⟨hr1, hr2⟩
          · have := removable_drop (hr (i - l) (by omega))
            rw [show l + (i - l) = i by omega] at this
            exact Or.inl this
          · have hl2 : LtextAt f l := by
              obtain ⟨x, y, a, b, c⟩ := hr2
              rw [List.getElem?_drop] at a b
              exact ⟨x, y, a, b, c⟩
            by_cases e : i = l
            · subst e; exact Or.inr (Or.inl hl2)
            · have : i = l + 1 := by omega
              subst this
              exact Or.inr (Or.inr ⟨by omega, by simpa using hl2⟩)
        · exact k4 i (by omega) h2 h3

/-- C57 (partial: see C57_violated_ltext).  What is written is the statements at some positions `K`, in the order of the
file, each with its text unchanged and separated from the next one.  Every statement that is not written is debug
information by itself, or switches to a debug section or belongs to one, or is one of the two lines before a `.Ltext`
label, of which the first is `.text`.  No debug information is left. -/
theorem C57_kept_partial (o : DfOpts) (hnl : o.emitNewlines = false) (f : List Stmt) (hnum : ∀ x ∈ f.drop 1, 0 < x.2)
    (out : List Byte) (h : debugFilter o f = some out) :
    ∃ K : List Nat, K.Pairwise (· < ·) ∧ (∀ i ∈ K, i < (f.drop 1).length) ∧
      out = (K.map (writtenText (f.drop 1))).flatten ∧
      (∀ i < (f.drop 1).length, i ∉ K →
        Removable o (f.drop 1) i ∨ LtextAt (f.drop 1) i ∨ (0 < i ∧ LtextAt (f.drop 1) (i - 1))) ∧
      ∀ i ∈ K, ∀ x, (f.drop 1)[i]? = some x → ¬ DebugLine o x.1 ∧ ¬ DebugSect o x.1 := by
  obtain ⟨K, k1, k2, k3, k4, k5⟩ := filter_spec o hnl (f.drop 1) hnum _ 0 (Nat.le_refl _) out h
  exact ⟨K, k1, fun i hi => (k2 i hi).2, k3, fun i hi hk => k4 i (Nat.zero_le _) hi hk, k5⟩

/-- C57: a file without debug information, without comments and without text labels is written unchanged: all of its
statements in order. -/
theorem C57_unchanged (o : DfOpts) (hnl : o.emitNewlines = false) (f : List Stmt) (hnum : ∀ x ∈ f.drop 1, 0 < x.2)
    (hclean : ∀ x ∈ f.drop 1, ¬ DebugLine o x.1 ∧ ¬ DebugSect o x.1)
    (out : List Byte) (h : debugFilter o f = some out) :
    out = ((List.range (f.drop 1).length).map (writtenText (f.drop 1))).flatten := by
  obtain ⟨K, k1, k2, k3, k4, _⟩ := C57_kept_partial o hnl f hnum out h
  have hall : ∀ i < (f.drop 1).length, i ∈ K := by
    intro i hi
    by_contra hk
    have hline : ∀ (j : Nat) (x : Stmt), (f.drop 1)[j]? = some x → ¬ DebugLine o x.1 ∧ ¬ DebugSect o x.1 :=
      fun j x hx => hclean x (List.mem_of_getElem? hx)
    have hlt : ∀ j, ¬ LtextAt (f.drop 1) j := by
      rintro j ⟨x, y, _, hy, _, hl⟩
      refine (hline _ y hy).1 (Or.inl ?_)
      rcases hl with hl | hl
      · exact ⟨lit ".Ltext", by simp, hl⟩
      · exact ⟨lit ".Letext", by simp, hl⟩
    rcases k4 i hi hk with (⟨x, hx, hr⟩ | ⟨j, _, ⟨x, hx, hr⟩, _⟩) | hr | ⟨_, hr⟩
    · rcases hr with hr | hr
      · exact (hline _ x hx).1 hr
      · exact (hline _ x hx).2 hr
    · exact (hline _ x hx).2 hr
    · exact hlt _ hr
    · exact hlt _ hr
  have : K = List.range (f.drop 1).length := by
    refine List.Perm.eq_of_pairwise (le := (· < ·)) ?_ k1 (List.pairwise_lt_range) ?_
    · intro a b _ _ h1 h2; omega
    · rw [List.perm_ext_iff_of_nodup (k1.imp (by intro a b h; omega)) List.nodup_range]
      intro i
      rw [List.mem_range]
      exact ⟨fun hi => k2 i hi, fun hi => hall i hi⟩
  rw [k3, this]

/-- The text of a file: its lines, each with a newline. -/
def fileText (lines : List (List Byte)) : List Byte := (lines.map fun l => l ++ [10#8]).flatten

/-- C57: if besides no line has several statements, the output is the text of the file, byte for byte. -/
theorem C57_identity (o : DfOpts) (hnl : o.emitNewlines = false) (lines : List (List Byte)) (first : Stmt)
    (hclean : ∀ x ∈ lines, ¬ DebugLine o x ∧ ¬ DebugSect o x) :
    debugFilter o (first :: lines.zipIdx 1) = some (fileText lines) := by
  have key : ∀ (ls : List (List Byte)) (i : Nat), (∀ x ∈ ls, ¬ DebugLine o x ∧ ¬ DebugSect o x) →
      debugFilterLoop o (ls.zipIdx (i + 1)) = some (fileText ls) := by
    intro ls
    induction ls with
    | nil => intro i _; rw [List.zipIdx_nil, debugFilterLoop]; rfl
    | cons s ls ih =>
      intro i hc
      rw [List.zipIdx_cons, debugFilterLoop]
      dsimp only
      have hs := hc s (by simp)
      rcases skip_spec o s (i + 1) (ls.zipIdx (i + 1 + 1)) with ⟨h0, _⟩ | ⟨h1, _, h2 | ⟨_, h2⟩⟩
      · rw [if_pos h0]
        have : stmtSep s (i + 1) (nextNum (ls.zipIdx (i + 1 + 1))) = some [10#8] := by
          unfold stmtSep
          rw [if_pos]
          cases ls with
          | nil => simp [nextNum]
          | cons y ls => simp [nextNum]
        rw [this]
        dsimp only
        rw [ih (i + 1) (fun x hx => hc x (by simp [hx]))]
        simp [fileText]
      · rcases h2 0 h1 with ⟨x, hx, hr⟩ | ⟨j, hj, _⟩
        · simp only [List.getElem?_cons_zero, Option.some.injEq] at hx
          subst hx
          rcases hr with hr | hr
          · exact absurd hr hs.1
          · exact absurd hr hs.2
        · omega
      · obtain ⟨x, y, _, hy, _, hl⟩ := h2
        have hm : y.1 ∈ s :: ls := by
          have := List.mem_of_getElem? hy
          rcases List.mem_cons.mp this with e | e
          · simp [e]
          · exact List.mem_cons_of_mem _ (List.fst_mem_of_mem_zipIdx e)
        exfalso
        refine (hc y.1 hm).1 (Or.inl ?_)
        rcases hl with hl | hl
        · exact ⟨lit ".Ltext", by simp, hl⟩
        · exact ⟨lit ".Letext", by simp, hl⟩
  exact key lines 0 hclean

/-- With the option to keep line numbers the output only has more newlines. -/
theorem C57_newlines (o : DfOpts) : ∀ (n : Nat) (f : List Stmt), f.length ≤ n →
    (debugFilterLoop o f).map (List.filter (· != 10#8)) =
      (debugFilterLoop { o with emitNewlines := false } f).map (List.filter (· != 10#8)) := by
  intro n
  induction n with
  | zero =>
    intro f hf
    have : f = [] := List.length_eq_zero_iff.mp (by omega)
    subst this
    rw [debugFilterLoop, debugFilterLoop]
  | succ n ih =>
    intro f hf
    match f with
    | [] => rw [debugFilterLoop, debugFilterLoop]
    | (s, num) :: r =>
      simp only [List.length_cons] at hf
      rw [debugFilterLoop, debugFilterLoop]
      have e : debugFilterSkip { o with emitNewlines := false } ((s, num) :: r) s = debugFilterSkip o ((s, num) :: r) s := rfl
      dsimp only
      rw [e]
      by_cases h0 : debugFilterSkip o ((s, num) :: r) s = 0
      · rw [if_pos h0, if_pos h0]
        split
        · rfl
        · rename_i sep _
          have := ih r (by omega)
          generalize debugFilterLoop o r = a at *
          generalize debugFilterLoop { o with emitNewlines := false } r = b at *
          cases a <;> cases b <;> simp_all
      · rw [if_neg h0, if_neg h0]
        have := ih (r.drop (debugFilterSkip o ((s, num) :: r) s - 1)) (by rw [List.length_drop]; omega)
        generalize debugFilterLoop o _ = a at *
        generalize debugFilterLoop { o with emitNewlines := false } _ = b at *
        have hz : ∀ k, (List.replicate k 10#8).filter (· != 10#8) = [] := by
          intro k
          rw [List.filter_eq_nil_iff]
          intro c hc
          rw [List.mem_replicate] at hc
          simp [hc.2]
        cases a <;> cases b <;> simp_all

/-- No options. -/
def dfNone : DfOpts := ⟨false, false, false, false⟩

/-- C57: what is taken for data is a data command of the assembler, and every data command gcc writes is taken for data,
so that it is removed with the debug section it is in (`C57_sections_partial`).  Partial: `.ascii` on RISC-V and
`.2byte` on LoongArch are not known; see the violations below. -/
theorem C57_data_commands_partial (line : List Byte) :
    (firstTok line ∈ gccData AsmTarget.isa →
      ¬ (AsmTarget.isa = .riscv ∧ firstTok line = lit ".ascii") → ¬ (AsmTarget.isa = .loongarch ∧ firstTok line = lit ".2byte") →
      isDataDef line = true) ∧
    (isDataDef line = true → firstTok line ∈ gasData) := by
  rw [isDataDef_iff]
  generalize firstTok line = t
  unfold dataDefs gccData
  constructor
  · intro h h1 h2
    cases hi : AsmTarget.isa <;> rw [hi] at h h1 h2 <;> dsimp only at h ⊢ <;>
      simp only [true_and, reduceCtorEq, false_and, not_false_eq_true] at h1 h2 <;>
      simp only [List.mem_cons, List.not_mem_nil, or_false] at h ⊢ <;> grind
  · intro h
    unfold gasData
    cases hi : AsmTarget.isa <;> rw [hi] at h <;> dsimp only at h <;>
      simp only [List.mem_cons, List.not_mem_nil, or_false] at h ⊢ <;> grind

end Target

/-- C57 is violated on LoongArch: gcc writes the version number of the debug information with `.2byte`, which is not known
as data, so it and what follows become a part of the section before, here `.text`. -/
theorem C57_violated_loongarch_2byte :
    @debugFilter loongAsm dfNone [([], 0), (lit "\t.text", 1), (lit "\tjr\t$r1", 2), (lit "\t.section\t.debug_info,\"\",@progbits", 3),
      (lit "\t.4byte\t0x20", 4), (lit "\t.2byte\t0x5", 5), (lit "\t.byte\t0x1", 6)] =
      some (lit "\t.text\n\tjr\t$r1\n\t.2byte\t0x5\n\t.byte\t0x1\n") := by decide +kernel

/-- C57 is violated on RISC-V: a string written with `.ascii` is not known as data. -/
theorem C57_violated_riscv_ascii :
    @debugFilter riscvAsm dfNone [([], 0), (lit "\t.text", 1), (lit "\tret", 2), (lit "\t.section\t.debug_str,\"MS\"", 3),
      (lit "\t.ascii\t\"a\"", 4), (lit "\t.string\t\"b\"", 5)] =
      some (lit "\t.text\n\tret\n\t.ascii\t\"a\"\n\t.string\t\"b\"\n") := by decide +kernel

section X86

attribute [local instance] x86Asm

example : isDataDef (lit "\t.quad\tf") = true ∧ firstTok (lit "\t.quad\tf") ∈ gccData .x86 := by decide +kernel

/-- C57 is violated: an instruction after `.text` is dropped if a text label follows.  The function looks at the line
after the next one, because it increases both the line number and the count. -/
theorem C57_violated_ltext :
    debugFilter dfNone [([], 0), (lit "\t.text", 1), (lit "\tnop", 2), (lit ".Ltext0:", 3), (lit "\tret", 4)] =
      some (lit "\tret\n") := by decide +kernel

/-- C57: data of a debug section after an empty line or a comment stays, and without the section command it is in the
section before: here it becomes a part of `.text`. -/
theorem C57_violated_section :
    debugFilter dfNone [([], 0), (lit "\t.text", 1), (lit "\t.section .debug_info", 2), (lit "\t.long 1", 3), ([], 4),
      (lit "\t.long 2", 5)] = some (lit "\t.text\n\n\t.long 2\n") := by decide +kernel

/-- C57: an empty statement before a semicolon makes the filter read the byte before a string. -/
theorem C57_violated_empty_statement :
    initMultilines [[], lit "; nop"] = some [([], 0), ([], 1), (lit "nop", 1)] ∧
      debugFilter dfNone [([], 0), ([], 1), (lit "nop", 1)] = none := by decide +kernel

/-- A file with a removed line, a removed section and a line of two statements. -/
example : debugFilter dfNone [([], 0), (lit "\t.text", 1), (lit "f:", 2), (lit " nop", 2), (lit "nop", 2), (lit ".loc 1 2", 3),
    (lit "\t.section .debug_info,\"\"", 4), (lit "\t.long 1", 5), (lit "\t.previous", 6), (lit "\tret", 7)] =
    some (lit "\t.text\nf: nop; nop\n\tret\n") := by decide +kernel

/-- The hypotheses of C57_identity are met. -/
example : ∀ x ∈ [lit "\t.text", lit "f:", lit "\tret"], ¬ DebugLine dfNone x ∧ ¬ DebugSect dfNone x := by
  intro x hx
  have key : ∀ n : Nat, skipLtextLbl [(x, n)] x = 0 → debugFilterSkip dfNone [(x, n)] x = 0 →
      ¬ DebugLine dfNone x ∧ ¬ DebugSect dfNone x := by
    intro n _ h
    rcases skip_spec dfNone x n [] with h' | h'
    · exact h'.2
    · omega
  simp only [List.mem_cons, List.not_mem_nil, or_false] at hx
  rcases hx with rfl | rfl | rfl <;> exact key 0 (by decide +kernel) (by decide +kernel)

end X86

end Verif
