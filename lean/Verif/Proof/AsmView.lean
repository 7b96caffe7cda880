import Verif.Spec.AsmView
import Verif.Model.Parse
import Verif.Props.Split
/-
Lemmas for C75.
-/
namespace Verif

/-- The lexer with statements `o` before. -/
def AsmLex.pre (o : List (List Byte)) (l : AsmLex) : AsmLex := { l with out := o ++ l.out }

theorem asmStep_pre (syn : AsmSyntax) (o : List (List Byte)) (l : AsmLex) (c : Byte) :
    asmStep syn (l.pre o) c = (asmStep syn l c).pre o := by
  obtain ⟨m, cur, out⟩ := l
  unfold asmStep AsmLex.pre
  cases m <;> simp only <;> repeat' split
  all_goals simp_all

theorem asmFold_pre (syn : AsmSyntax) (o : List (List Byte)) : ∀ (s : List Byte) (l : AsmLex),
    s.foldl (asmStep syn) (l.pre o) = (s.foldl (asmStep syn) l).pre o := by
  intro s
  induction s with
  | nil => intro l; rfl
  | cons c s ih => intro l; rw [List.foldl_cons, List.foldl_cons, asmStep_pre, ih]

theorem asmAfter_append (syn : AsmSyntax) (a b : List Byte) : asmAfter syn (a ++ b) = b.foldl (asmStep syn) (asmAfter syn a) := by
  unfold asmAfter
  rw [List.foldl_append]

theorem asmAfter_snoc (syn : AsmSyntax) (a : List Byte) (c : Byte) :
    asmAfter syn (a ++ [c]) = asmStep syn (asmAfter syn a) c := by rw [asmAfter_append]; rfl

/-- At the start of a statement the lexer is as at the start of a line. -/
theorem asmAfter_fresh (syn : AsmSyntax) (a b : List Byte) (hm : (asmAfter syn a).mode = .code) (hc : (asmAfter syn a).cur = []) :
    asmAfter syn (a ++ b) = (asmAfter syn b).pre (asmAfter syn a).out := by
  rw [asmAfter_append]
  have : asmAfter syn a = ({} : AsmLex).pre (asmAfter syn a).out := by
    cases h : asmAfter syn a with
    | mk m c o =>
      rw [h] at hm hc
      simp only at hm hc
      subst hm; subst hc
      simp [AsmLex.pre]
  conv => lhs; rw [this]
  rw [asmFold_pre]
  rfl

theorem asmView_fresh (syn : AsmSyntax) (a b : List Byte) (hm : (asmAfter syn a).mode = .code) (hc : (asmAfter syn a).cur = []) :
    asmView syn (a ++ b) = (asmAfter syn a).out ++ asmView syn b := by
  unfold asmView
  rw [asmAfter_fresh syn a b hm hc]
  simp [AsmLex.pre]

theorem asmBlanks (syn : AsmSyntax) {b : List Byte} (hb : AllBlank b) : ∀ (l : AsmLex), l.mode = .code → l.cur = [] →
    b.foldl (asmStep syn) l = l := by
  induction b with
  | nil => intro l _ _; rfl
  | cons c b ih =>
    intro l hm hc
    have h := hb c (by simp)
    have : asmStep syn l c = l := by
      unfold asmStep
      rw [hm]
      rcases h with rfl | rfl <;> simp [hc, asmBlank]
    rw [List.foldl_cons, this, ih (fun c hc => hb c (by simp [hc])) l hm hc]

theorem asmEmit_nil : asmEmit [] = [] := rfl

/-- A separator in code. -/
theorem asmView_semi (syn : AsmSyntax) (a b : List Byte) (hm : (asmAfter syn a).mode = .code) :
    (asmAfter syn (a ++ [0x3b#8])).mode = .code ∧ (asmAfter syn (a ++ [0x3b#8])).cur = [] ∧
    asmView syn (a ++ 0x3b#8 :: b) = asmView syn a ++ asmView syn b := by
  have h : asmAfter syn (a ++ [0x3b#8]) =
      { asmAfter syn a with cur := [], out := (asmAfter syn a).out ++ asmEmit (asmAfter syn a).cur } := by
    rw [asmAfter_snoc]
    unfold asmStep
    rw [hm]
    simp [hm]
  have h1 : (asmAfter syn (a ++ [0x3b#8])).mode = .code := by rw [h]; exact hm
  have h2 : (asmAfter syn (a ++ [0x3b#8])).cur = [] := by rw [h]
  refine ⟨h1, h2, ?_⟩
  rw [show a ++ 0x3b#8 :: b = (a ++ [0x3b#8]) ++ b by simp, asmView_fresh syn _ _ h1 h2, h]
  rfl

/-- The colon of a label. -/
theorem asmView_label (syn : AsmSyntax) (a b : List Byte) (hm : (asmAfter syn a).mode = .code)
    (hl : asmLabel (asmAfter syn a).cur = true) :
    (asmAfter syn (a ++ [0x3a#8])).mode = .code ∧ (asmAfter syn (a ++ [0x3a#8])).cur = [] ∧
    asmView syn (a ++ 0x3a#8 :: b) = asmView syn (a ++ [0x3a#8]) ++ asmView syn b := by
  have h : asmAfter syn (a ++ [0x3a#8]) =
      { asmAfter syn a with cur := [], out := (asmAfter syn a).out ++ [asmTrim (asmAfter syn a).cur ++ [0x3a#8]] } := by
    rw [asmAfter_snoc]
    unfold asmStep
    rw [hm]
    simp [hl, hm]
  have h1 : (asmAfter syn (a ++ [0x3a#8])).mode = .code := by rw [h]; exact hm
  have h2 : (asmAfter syn (a ++ [0x3a#8])).cur = [] := by rw [h]
  refine ⟨h1, h2, ?_⟩
  rw [show a ++ 0x3a#8 :: b = (a ++ [0x3a#8]) ++ b by simp, asmView_fresh syn _ _ h1 h2]
  congr 1
  unfold asmView
  rw [h2]
  simp [asmEmit_nil]

theorem asmView_blanks (syn : AsmSyntax) {b : List Byte} (hb : AllBlank b) (r : List Byte) :
    asmView syn (b ++ r) = asmView syn r := by
  have h : asmAfter syn b = {} := asmBlanks syn hb {} rfl rfl
  rw [asmView_fresh syn b r (by rw [h]) (by rw [h]), h]
  rfl

/-- What is read last is the last of the statement. -/
theorem asmCur_last (syn : AsmSyntax) (a : List Byte) (hm : (asmAfter syn a).mode ≠ .cmt) :
    (asmAfter syn a).cur = [] ∨ (asmAfter syn a).cur.getLast? = a.getLast? := by
  rcases List.eq_nil_or_concat a with rfl | ⟨b, c, rfl⟩
  · exact Or.inl rfl
  · rw [List.concat_eq_append, asmAfter_snoc] at hm ⊢
    generalize asmAfter syn b = l at hm ⊢
    rw [List.getLast?_append_cons, List.getLast?_singleton]
    unfold asmStep at hm ⊢
    cases hl : l.mode <;> simp only [hl] at hm ⊢
    · split at hm
      · simp at hm
      rename_i h1
      rw [if_neg h1]
      split at hm
      · simp at hm
      rename_i h2
      rw [if_neg h2]
      repeat' split
      all_goals simp_all
    · simp
    · simp
    · exact absurd rfl hm

/-- The rest of a usual line is usual after a separator or a label. -/
theorem usual_rest {syn : AsmSyntax} {a b : List Byte} (h : UsualLine syn (a ++ b)) (hm : (asmAfter syn a).mode = .code)
    (hc : (asmAfter syn a).cur = []) : UsualLine syn b := by
  have key : ∀ x, (asmAfter syn (a ++ x)).mode = (asmAfter syn x).mode ∧ (asmAfter syn (a ++ x)).cur = (asmAfter syn x).cur := by
    intro x
    rw [asmAfter_fresh syn a x hm hc]
    exact ⟨rfl, rfl⟩
  have ws : ∀ x, WordStart (a ++ x) → WordStart x := by
    intro x hw c hx
    apply hw c
    cases x with
    | nil => simp at hx
    | cons y x => rw [List.getLast?_append_cons]; exact hx
  constructor
  · intro hx; exact h.noNewline (by simp [hx])
  · intro x y e hx
    exact ws x (h.quote (a ++ x) y (by rw [e]; simp) (by rw [(key x).1]; exact hx))
  · intro x y e hx hx2
    have := h.hash (a ++ x) y (by rw [e]; simp) (by rw [(key x).1]; exact hx) (by
      rw [List.append_assoc, (key _).1]; exact hx2)
    exact this.imp id (fun t => ⟨ws x t.1, t.2⟩)
  · intro x y e hx hx2
    have := h.slashes (a ++ x) y (by rw [e]; simp) (by rw [List.append_assoc, (key _).1]; exact hx) (by
      rw [List.append_assoc, (key _).1]; exact hx2)
    exact this.imp id (fun t => ⟨ws x t.1, t.2⟩)
  · intro x y e hx
    have := h.colon (a ++ x) y (by rw [e]; simp) (by rw [(key x).1]; exact hx)
    rw [(key x).2] at this
    exact this
  · intro x y e
    have := h.noChar (a ++ x) y (by rw [e]; simp)
    rw [(key x).1] at this
    exact this
  · intro x y e
    have := h.noBlock (a ++ x) y (by rw [e]; simp)
    rw [(key x).1] at this
    exact this

theorem asmDelim_eq (c : Byte) : asmDelim c = delims.contains c := rfl

/-- A word without delimiters that does not start with a quote: it is added to the statement, or a comment without
separators starts in it, or it is the start of a comment. -/
theorem word_run {syn : AsmSyntax} {s : List Byte} (h : UsualLine syn s) : ∀ (w done a r : List Byte),
    s = a ++ done ++ w ++ r → (∀ c ∈ done ++ w, asmDelim c = false) → (∀ c ∈ done, c ≠ 0x22#8) →
    (∀ c, r.head? = some c → asmDelim c = true) → WordStart a →
    (done ++ w).head? ≠ some 0x22#8 → (asmAfter syn a).mode = .code →
    asmAfter syn (a ++ done) = { asmAfter syn a with cur := (asmAfter syn a).cur ++ done } →
    asmAfter syn (a ++ done ++ w) = { asmAfter syn a with cur := (asmAfter syn a).cur ++ (done ++ w) } ∨ Quiet r ∨
    done ++ w = [0x23#8] ∨ (syn = .slashes ∧ done ++ w = [0x2f#8, 0x2f#8]) := by
  intro w
  induction w with
  | nil =>
    intro done a r hs _ _ _ _ _ _ hst
    left
    simpa using hst
  | cons c w ih =>
    intro done a r hs hnd hnq hr hws hq hm hst
    have hcd : asmDelim c = false := hnd c (by simp)
    have hmd : (asmAfter syn (a ++ done)).mode = .code := by rw [hst]; exact hm
    -- no string starts inside the word
    have hcq : c ≠ 0x22#8 := by
      intro e
      subst e
      have hw := h.quote (a ++ done) (w ++ r) (by rw [hs]; simp) hmd
      rcases List.eq_nil_or_concat done with rfl | ⟨d, x, rfl⟩
      · simp at hq
      · have := hw x (by simp [← List.append_assoc])
        rcases this with e | e
        · rw [hnd x (by simp)] at e; cases e
        · exact hnq x (by simp) e
    have hin : ∀ y, y ∈ done → ∀ z, WordStart z → z.getLast? = some y → False := by
      intro y hy z hz hl
      rcases hz y hl with e | e
      · rw [hnd y (by simp [hy])] at e; cases e
      · exact hnq y hy e
    have hw0 : ∀ b : List Byte, (∀ c, b.head? = some c → asmDelim c = true) → b = w ++ r → w = [] := by
      intro b hb e
      cases w with
      | nil => rfl
      | cons y w =>
        have := hb y (by rw [e]; rfl)
        rw [hnd y (by simp)] at this
        cases this
    by_cases hcm : (asmAfter syn (a ++ done ++ [c])).mode = .cmt
    · -- a comment starts here
      right
      have hstep := hcm
      rw [asmAfter_snoc] at hstep
      unfold asmStep at hstep
      rw [hmd] at hstep
      simp only at hstep
      have hne3b : c ≠ 0x3b#8 := by rintro rfl; simp [asmDelim] at hcd
      have hne3a : c ≠ 0x3a#8 := by rintro rfl; simp [asmDelim] at hcd
      by_cases e1 : c = 0x23#8
      · subst e1
        rcases h.hash (a ++ done) (w ++ r) (by rw [hs]; simp) hmd hcm with hqt | ⟨h1, h2⟩
        · left
          exact ⟨fun x => hqt.1 (by simp [x]), fun x => hqt.2 (by simp [x])⟩
        · right; left
          have hw' := hw0 _ h2 rfl
          subst hw'
          rcases List.eq_nil_or_concat done with rfl | ⟨d, x, rfl⟩
          · rfl
          · exact (hin x (by simp) _ h1 (by simp [← List.append_assoc])).elim
      · rw [if_neg (by simp [e1])] at hstep
        by_cases e2 : c = 0x2f#8 ∧ syn = .slashes ∧ (asmAfter syn (a ++ done)).cur.getLast? = some 0x2f#8
        · obtain ⟨rfl, hsyn, hlast⟩ := e2
          have hl2 : (a ++ done).getLast? = some 0x2f#8 := by
            rcases asmCur_last syn (a ++ done) (by rw [hmd]; simp) with e | e
            · rw [e] at hlast; simp at hlast
            · rw [← e]; exact hlast
          rcases List.eq_nil_or_concat done with rfl | ⟨d, x, rfl⟩
          · rw [List.append_nil] at hl2
            rcases hws _ hl2 with e | e
            · simp [asmDelim] at e
            · simp at e
          · rw [List.concat_eq_append] at *
            have hx : x = 0x2f#8 := by simpa [← List.append_assoc] using hl2
            subst hx
            rcases h.slashes (a ++ d) (w ++ r) (by rw [hs]; simp) (by simpa [← List.append_assoc] using hmd)
              (by have := hcm; simp only [List.append_assoc, List.cons_append, List.nil_append] at this ⊢; exact this) with hqt | ⟨h1, h2⟩
            · left
              exact ⟨fun x => hqt.1 (by simp [x]), fun x => hqt.2 (by simp [x])⟩
            · right; right
              have hw' := hw0 _ h2 rfl
              subst hw'
              refine ⟨hsyn, ?_⟩
              rcases List.eq_nil_or_concat d with rfl | ⟨d', x, rfl⟩
              · rfl
              · exact (hin x (by simp) _ h1 (by simp [← List.append_assoc])).elim
        · rw [if_neg e2, if_neg hne3b, if_neg (by simp [hne3a])] at hstep
          split at hstep
          · rw [hmd] at hstep; simp at hstep
          · simp [hcq] at hstep
    · -- one more character of the word
      have hst' : asmAfter syn (a ++ (done ++ [c])) =
          { asmAfter syn a with cur := (asmAfter syn a).cur ++ (done ++ [c]) } := by
        have hstep : asmAfter syn (a ++ done ++ [c]) = asmStep syn (asmAfter syn (a ++ done)) c := asmAfter_snoc _ _ _
        rw [← List.append_assoc, hstep]
        rw [hstep] at hcm
        have hne3b : c ≠ 0x3b#8 := by rintro rfl; simp [asmDelim] at hcd
        have hne3a : c ≠ 0x3a#8 := by rintro rfl; simp [asmDelim] at hcd
        have hbl : asmBlank c = false := by
          by_contra hc
          have hc' : asmBlank c = true := by simpa using hc
          have : c = 0x20#8 ∨ c = 0x09#8 := by simpa [asmBlank] using hc'
          rcases this with rfl | rfl <;> simp [asmDelim] at hcd
        unfold asmStep at hcm ⊢
        rw [hmd] at hcm ⊢
        simp only at hcm ⊢
        by_cases e1 : c = 0x23#8 ∧ (syn = .hash ∨ (asmAfter syn (a ++ done)).cur = [])
        · rw [if_pos e1] at hcm; simp at hcm
        rw [if_neg e1] at hcm ⊢
        by_cases e2 : c = 0x2f#8 ∧ syn = .slashes ∧ (asmAfter syn (a ++ done)).cur.getLast? = some 0x2f#8
        · rw [if_pos e2] at hcm; simp at hcm
        rw [if_neg e2, if_neg hne3b, if_neg (by simp [hne3a]), if_neg (by simp [hbl]), if_neg hcq, hst]
        simp [hm]
      have := ih (done ++ [c]) a r (by rw [hs]; simp) (by simpa using hnd) (by
        intro x hx
        rcases List.mem_append.1 hx with e | e
        · exact hnq x e
        · simp only [List.mem_singleton] at e; subst e; exact hcq) hr hws (by simpa using hq) hm hst'
      simpa using this

/-- A string: from the opening quote to the closing one. -/
theorem string_run (syn : AsmSyntax) : ∀ (s r : List Byte), quoteEnd s = 0x22#8 :: r → ∀ l : AsmLex, l.mode = .str →
    ∃ x, s = x ++ 0x22#8 :: r ∧ (x ++ [0x22#8]).foldl (asmStep syn) l =
      { l with mode := .code, cur := l.cur ++ (x ++ [0x22#8]) } := by
  intro s
  fun_induction quoteEnd s with
  | case1 => intro r h; simp at h
  | case2 =>
    intro r h l hl
    simp only [List.cons.injEq] at h
    refine ⟨[], by simp [h.2], ?_⟩
    simp [asmStep, hl]
  | case3 c hc => intro r h; simp at h
  | case4 d r0 =>
    intro r h l hl
    simp only [List.cons.injEq, true_and] at h
    refine ⟨[], by simp [h], ?_⟩
    simp [asmStep, hl]
  | case5 d r0 hc ih =>
    intro r h l hl
    obtain ⟨x, hx, h'⟩ := ih r h { l with mode := .str, cur := l.cur ++ [0x5c#8] ++ [d] } rfl
    refine ⟨92#8 :: d :: x, by simp [hx], ?_⟩
    rw [List.cons_append, List.cons_append, List.foldl_cons, List.foldl_cons]
    have : asmStep syn (asmStep syn l 92#8) d = { l with mode := .str, cur := l.cur ++ [0x5c#8] ++ [d] } := by
      simp [asmStep, hl]
    rw [this, h']
    simp
  | case6 c d r0 hc hc' ih =>
    intro r h l hl
    obtain ⟨x, hx, h'⟩ := ih r h { l with mode := .str, cur := l.cur ++ [c] } rfl
    refine ⟨c :: x, by simp [hx], ?_⟩
    rw [List.cons_append, List.foldl_cons]
    have : asmStep syn l c = { l with mode := .str, cur := l.cur ++ [c] } := by
      simp [asmStep, hl, hc, hc']
    rw [this, h']
    simp

theorem quoteEnd_shape (u : List Byte) : quoteEnd u = [] ∨ ∃ r, quoteEnd u = 0x22#8 :: r := by
  fun_induction quoteEnd u <;> simp_all

/-- The four shapes of a token. -/
theorem token_shape {tk r : List Byte} (hne : tk ≠ []) (h : tokenEnd delims (tk ++ r) = r) :
    (tk.head? = some 0x22#8 ∧ ∃ x, tk = 0x22#8 :: x ∧ quoteEnd (x ++ r) = 0x22#8 :: r) ∨
    (tk.head? = some 0x22#8 ∧ r = []) ∨
    (∃ c, tk = [c] ∧ asmDelim c = true ∧ c ≠ 0x22#8) ∨
    ((∀ c ∈ tk, asmDelim c = false) ∧ tk.head? ≠ some 0x22#8 ∧ ∀ c, r.head? = some c → asmDelim c = true) := by
  obtain ⟨a, w, rfl⟩ : ∃ a w, tk = a :: w := by
    cases tk with
    | nil => exact absurd rfl hne
    | cons a w => exact ⟨a, w, rfl⟩
  unfold tokenEnd at h
  simp only [List.cons_append, List.head?_cons, Option.some.injEq, List.drop_succ_cons, List.drop_zero] at h
  by_cases hq : a = 34#8
  · subst hq
    rw [if_pos rfl] at h
    rcases quoteEnd_shape (w ++ r) with e | ⟨r', e⟩
    · right; left
      rw [e] at h
      simp only [List.head?_nil, List.length_nil, List.length_cons] at h
      refine ⟨rfl, ?_⟩
      simpa using h.symm
    · left
      have hl := quoteEnd_length (w ++ r)
      rw [e] at h hl
      simp only [List.head?_cons, if_true, List.drop_succ_cons, List.drop_zero] at h
      rw [if_neg (by simp only [List.length_cons] at hl ⊢; omega)] at h
      subst h
      exact ⟨rfl, w, rfl, e⟩
  · rw [if_neg hq] at h
    by_cases hd : delims.contains a = true
    · right; right; left
      have hdw : (a :: (w ++ r)).dropWhile (fun c => !delims.contains c) = a :: (w ++ r) := by
        rw [List.dropWhile_cons, if_neg (by rw [hd]; decide)]
      rw [hdw, if_pos rfl] at h
      have := congrArg List.length h
      rw [List.length_append] at this
      have hw : w = [] := List.length_eq_zero_iff.mp (by omega)
      subst hw
      exact ⟨a, rfl, hd, hq⟩
    · right; right; right
      have hd' : delims.contains a = false := by simpa using hd
      have hdw : (a :: (w ++ r)).dropWhile (fun c => !delims.contains c) = (w ++ r).dropWhile (fun c => !delims.contains c) := by
        rw [List.dropWhile_cons, if_pos (by rw [hd']; rfl)]
      rw [hdw] at h
      have hl := dropWhile_length (fun c => !delims.contains c) (w ++ r)
      rw [if_neg (by simp only [List.length_cons]; omega)] at h
      have hsplit := List.takeWhile_append_dropWhile (p := fun c => !delims.contains c) (l := w ++ r)
      rw [h] at hsplit
      have hw : (w ++ r).takeWhile (fun c => !delims.contains c) = w := List.append_cancel_right hsplit
      refine ⟨?_, by simpa using hq, ?_⟩
      · intro c hc
        rcases List.mem_cons.1 hc with rfl | hc
        · exact hd'
        · rw [← hw] at hc
          have := mem_takeWhile_imp' (p := fun c => !delims.contains c) hc
          rw [asmDelim_eq]
          simpa using this
      · intro c hc
        have := List.head?_dropWhile_not (fun c => !delims.contains c) (w ++ r)
        rw [h, hc] at this
        rw [asmDelim_eq]
        simpa using this

/-- Blanks do not end a statement. -/
theorem asm_blanks_code (syn : AsmSyntax) {b : List Byte} (hb : AllBlank b) : ∀ (l : AsmLex), l.mode = .code →
    (b.foldl (asmStep syn) l).mode = .code ∧ (b.foldl (asmStep syn) l).cur = if l.cur = [] then [] else l.cur ++ b := by
  induction b with
  | nil => intro l hm; refine ⟨hm, ?_⟩; simp
  | cons c b ih =>
    intro l hm
    rw [List.foldl_cons]
    have h := hb c (by simp)
    have hstep : asmStep syn l c = { l with cur := if l.cur = [] then [] else l.cur ++ [c] } := by
      obtain ⟨m, cur, out⟩ := l
      simp only at hm
      subst hm
      unfold asmStep
      by_cases hcur : cur = []
      · rcases h with rfl | rfl <;> simp [hcur, asmBlank]
      · rcases h with rfl | rfl <;> simp [hcur, asmBlank]
    rw [hstep]
    have := ih (fun c hc => hb c (by simp [hc])) { l with cur := if l.cur = [] then [] else l.cur ++ [c] } hm
    refine ⟨this.1, ?_⟩
    rw [this.2]
    by_cases hcur : l.cur = []
    · simp [hcur]
    · simp [hcur]

theorem wordStart_blank {a b : List Byte} (hb : AllBlank b) (hne : b ≠ []) : WordStart (a ++ b) := by
  intro c hc
  left
  rcases List.eq_nil_or_concat b with e | ⟨d, x, rfl⟩
  · exact absurd e hne
  · have : x = c := by simpa [← List.append_assoc] using hc
    subst this
    rcases hb x (by simp) with rfl | rfl <;> rfl

/-- After a token that starts in code and is not a separator or the start of a comment. -/
theorem token_code {syn : AsmSyntax} {a tk r : List Byte} (h : UsualLine syn (a ++ tk ++ r))
    (hm : (asmAfter syn a).mode = .code) (hws : WordStart a ∨ ∃ c, tk.head? = some c ∧ asmDelim c = true)
    (hne : tk ≠ []) (hb : ∀ c, tk.head? = some c → isBlank c = false) (he : tokenEnd delims (tk ++ r) = r)
    (h1 : tk ≠ [0x3b#8]) (h2 : tk ≠ [0x23#8]) (h3 : syn = .slashes → tk ≠ [0x2f#8, 0x2f#8]) :
    Quiet r ∨ r = [] ∨ ((asmAfter syn (a ++ tk)).mode = .code ∧
      (WordStart (a ++ tk) ∨ ∃ c, r.head? = some c ∧ asmDelim c = true) ∧
      ((asmAfter syn a).cur = [] → (asmAfter syn (a ++ tk)).cur = tk)) := by
  have hnd : ∀ x : Byte, tk.head? = some x → asmDelim x = false → WordStart a := by
    intro x hx hd
    rcases hws with e | ⟨c, h1, h2⟩
    · exact e
    · rw [h1] at hx
      simp only [Option.some.injEq] at hx
      subst hx
      rw [hd] at h2; cases h2
  rcases token_shape hne he with ⟨hq, x, rfl, hx⟩ | ⟨hq, rfl⟩ | ⟨c, rfl, hd, hcq⟩ | ⟨hall, hq, hr⟩
  · right; right
    have hs0 : asmAfter syn (a ++ [0x22#8]) = { asmAfter syn a with mode := .str, cur := (asmAfter syn a).cur ++ [0x22#8] } := by
      rw [asmAfter_snoc]
      unfold asmStep
      rw [hm]
      simp [asmBlank]
    obtain ⟨y, hy, hrun⟩ := string_run syn _ _ hx { asmAfter syn a with mode := .str, cur := (asmAfter syn a).cur ++ [0x22#8] } rfl
    have hxy : x = y ++ [0x22#8] := by
      have : x ++ r = (y ++ [0x22#8]) ++ r := by rw [hy]; simp
      exact List.append_cancel_right this
    have hs1 : asmAfter syn (a ++ 0x22#8 :: x) = { asmAfter syn a with mode := .code, cur := (asmAfter syn a).cur ++ 0x22#8 :: x } := by
      rw [show a ++ 0x22#8 :: x = (a ++ [0x22#8]) ++ x by simp, asmAfter_append, hs0, hxy, hrun]
      simp
    rw [hs1]
    refine ⟨rfl, Or.inl ?_, ?_⟩
    · intro c hc
      right
      rw [hxy] at hc
      have : (a ++ 34#8 :: (y ++ [34#8])).getLast? = some 0x22#8 := by
        rw [show a ++ 34#8 :: (y ++ [34#8]) = (a ++ 34#8 :: y) ++ [34#8] by simp]
        exact List.getLast?_concat
      rw [this] at hc
      simpa using hc.symm
    · intro e; simp [e]
  · exact Or.inr (Or.inl rfl)
  · right; right
    have hbl : isBlank c = false := hb c rfl
    have hbl' : asmBlank c = false := by
      rw [← hbl]; unfold asmBlank isBlank; simp [← beq_iff_eq]
    have n1 : c ≠ 0x3b#8 := fun e => h1 (by rw [e])
    have n2 : c ≠ 0x23#8 := by rintro rfl; simp [asmDelim] at hd
    have n3 : c ≠ 0x2f#8 := by rintro rfl; simp [asmDelim] at hd
    rw [asmAfter_snoc]
    have hstep : asmStep syn (asmAfter syn a) c =
        if c = 0x3a#8 ∧ asmLabel (asmAfter syn a).cur = true then
          { asmAfter syn a with cur := [], out := (asmAfter syn a).out ++ [asmTrim (asmAfter syn a).cur ++ [c]] }
        else { asmAfter syn a with cur := (asmAfter syn a).cur ++ [c] } := by
      unfold asmStep
      rw [hm]
      simp only
      rw [if_neg (by simp [n2]), if_neg (by simp [n3]), if_neg n1]
      split
      · simp [hm]
      · rw [if_neg (by simp [hbl'])]; simp [hm, hcq]
    rw [hstep]
    refine ⟨?_, Or.inl ?_, ?_⟩
    · split <;> exact hm
    · intro d hdl
      left
      have : c = d := by simpa using hdl
      rw [← this]; exact hd
    · intro e
      rw [e]
      have : asmLabel [] = false := by decide
      simp [this]
  · obtain ⟨x, w, rfl⟩ : ∃ x w, tk = x :: w := by
      cases tk with
      | nil => exact absurd rfl hne
      | cons x w => exact ⟨x, w, rfl⟩
    have hws' := hnd x rfl (hall x (by simp))
    have := word_run h (x :: w) [] a r (by simp) (by simpa using hall) (by simp) hr hws' hq hm (by simp)
    simp only [List.nil_append, List.append_nil] at this
    rcases this with e | e | e | ⟨e1, e2⟩
    · by_cases hr0 : r = []
      · exact Or.inr (Or.inl hr0)
      right; right
      rw [e]
      refine ⟨hm, Or.inr ?_, ?_⟩
      · cases r with
        | nil => exact absurd rfl hr0
        | cons y r => exact ⟨y, rfl, hr y rfl⟩
      · intro e; simp [e]
    · exact Or.inl e
    · exact absurd e h2
    · exact absurd e2 (h3 e1)

end Verif
