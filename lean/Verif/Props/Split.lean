import Verif.Spec.Split
import Verif.Proof.Token
import Verif.Props.Rename
/-
C60: splitting lines into statements loses nothing.
-/
namespace Verif

section Target

variable [AsmTarget]

theorem quoteEnd_cut : ∀ (s r : List Byte), quoteEnd s = 34#8 :: r → ∃ x, s = x ++ 34#8 :: r ∧
    ∀ r', quoteEnd (x ++ 34#8 :: r') = 34#8 :: r' := by
  intro s
  have q0 : ∀ r', quoteEnd (34#8 :: r') = 34#8 :: r' := by
    intro r'
    cases r' <;> simp [quoteEnd]
  fun_induction quoteEnd s with
  | case1 => intro r h; simp at h
  | case2 =>
    intro r h
    simp only [List.cons.injEq] at h
    refine ⟨[], by simp [h.2], fun r' => q0 r'⟩
  | case3 c hc => intro r h; simp at h
  | case4 d r0 =>
    intro r h
    simp only [List.cons.injEq, true_and] at h
    exact ⟨[], by simp [h], fun r' => q0 r'⟩
  | case5 d r0 hc ih =>
    intro r h
    obtain ⟨x, hx, h'⟩ := ih r h
    refine ⟨92#8 :: d :: x, by simp [hx], fun r' => ?_⟩
    simp only [List.cons_append]
    rw [quoteEnd]
    simp [h' r']
  | case6 c d r0 hc hc' ih =>
    intro r h
    obtain ⟨x, hx, h'⟩ := ih r h
    refine ⟨c :: x, by simp [hx], fun r' => ?_⟩
    have h2 := h' r'
    cases hx' : x ++ 34#8 :: r' with
    | nil => simp at hx'
    | cons a b =>
      rw [hx'] at h2
      rw [List.cons_append, hx', quoteEnd]
      simp [hc, hc', h2]

/-- Cutting a line after a token does not change the token. -/
theorem tokenEnd_cut (s r : List Byte) (hs : s ≠ []) (hr : r ≠ []) (h : tokenEnd delims s = r) :
    ∃ t, s = t ++ r ∧ t ≠ [] ∧ ∀ r', (r' = [] ∨ r'.head? = r.head?) → tokenEnd delims (t ++ r') = r' := by
  unfold tokenEnd at h ⊢
  dsimp only at h
  by_cases hq : s.head? = some 34#8
  · rw [if_pos hq] at h
    have hlen : ((if (quoteEnd (s.drop 1)).head? = some 34#8 then (quoteEnd (s.drop 1)).drop 1
        else quoteEnd (s.drop 1))).length < s.length := by
      have := quoteEnd_length (s.drop 1)
      rw [List.length_drop] at this
      have := List.length_pos_iff.mpr hs
      split
      · rw [List.length_drop]; omega
      · omega
    rw [if_neg (by omega)] at h
    split at h
    · rename_i h1
      obtain ⟨y, hy⟩ : ∃ y, quoteEnd (s.drop 1) = 34#8 :: y := by
        cases hc : quoteEnd (s.drop 1) with
        | nil => rw [hc] at h1; simp at h1
        | cons a b =>
          simp only [hc, List.head?_cons, Option.some.injEq] at h1
          exact ⟨b, by rw [h1]⟩
      rw [hy] at h
      simp only [List.drop_succ_cons, List.drop_zero] at h
      subst h
      obtain ⟨x, hx, hx'⟩ := quoteEnd_cut _ _ hy
      have hse : s = 34#8 :: (x ++ 34#8 :: y) := by
        cases s with
        | nil => exact absurd rfl hs
        | cons a b =>
          simp only [List.head?_cons, Option.some.injEq] at hq
          simp only [List.drop_succ_cons, List.drop_zero] at hx
          rw [hq, hx]
      refine ⟨34#8 :: (x ++ [34#8]), by simp [hse], by simp, fun r' _ => ?_⟩
      have e1 : (34#8 :: (x ++ [34#8]) ++ r').head? = some 34#8 := by simp
      have e2 : (34#8 :: (x ++ [34#8]) ++ r').drop 1 = x ++ 34#8 :: r' := by simp
      rw [if_pos e1, e2, hx' r']
      simp only [List.head?_cons, if_true, List.drop_succ_cons, List.drop_zero]
      rw [if_neg]
      simp only [List.length_append, List.length_cons]
      omega
    · rename_i h1
      exfalso
      -- an unclosed quote takes the rest of the line
      have : ∀ u : List Byte, quoteEnd u = [] ∨ (quoteEnd u).head? = some 34#8 := by
        intro u
        fun_induction quoteEnd u <;> simp_all
      rcases this (s.drop 1) with e | e
      · exact hr (by rw [← h, e])
      · exact h1 e
  · rw [if_neg hq] at h
    by_cases hd : (s.dropWhile fun c => !delims.contains c).length = s.length
    · rw [if_pos hd] at h
      cases s with
      | nil => exact absurd rfl hs
      | cons a b =>
        simp only [List.drop_succ_cons, List.drop_zero] at h
        subst h
        simp only [List.head?_cons, Option.some.injEq] at hq
        refine ⟨[a], rfl, by simp, fun r' _ => ?_⟩
        have hda : delims.contains a = true := by
          by_contra hc
          rw [List.dropWhile_cons, if_pos (by simpa using hc)] at hd
          have := dropWhile_length (fun c => !delims.contains c) b
          simp only [List.length_cons] at hd
          omega
        have e1 : ¬ ([a] ++ r').head? = some 34#8 := by simpa using hq
        have e2 : ([a] ++ r').dropWhile (fun c => !delims.contains c) = a :: r' := by
          rw [show ([a] ++ r') = a :: r' from rfl, List.dropWhile_cons, if_neg (by rw [hda]; decide)]
        rw [if_neg e1, e2]
        simp
    · rw [if_neg hd] at h
      refine ⟨s.takeWhile fun c => !delims.contains c, ?_, ?_, fun r' hr' => ?_⟩
      · rw [← h, List.takeWhile_append_dropWhile]
      · intro e
        have := List.takeWhile_append_dropWhile (p := fun c => !delims.contains c) (l := s)
        rw [e, List.nil_append] at this
        exact hd (by rw [this])
      · have hne : (s.takeWhile fun c => !delims.contains c) ≠ [] := by
          intro e
          have := List.takeWhile_append_dropWhile (p := fun c => !delims.contains c) (l := s)
          rw [e, List.nil_append] at this
          exact hd (by rw [this])
        have e1 : ¬ ((s.takeWhile fun c => !delims.contains c) ++ r').head? = some 34#8 := by
          intro e
          apply hq
          cases s with
          | nil => exact absurd rfl hs
          | cons a b =>
            rw [List.takeWhile_cons] at e hne
            split at e
            · simpa using e
            · rename_i hc; rw [if_neg hc] at hne; exact absurd rfl hne
        have e2 : ((s.takeWhile fun c => !delims.contains c) ++ r').dropWhile (fun c => !delims.contains c) = r' := by
          rw [List.dropWhile_append_of_pos (fun c hc => mem_takeWhile_imp' (p := fun c => !delims.contains c) hc)]
          rcases hr' with e | e
          · subst e; rfl
          · cases r' with
            | nil => rfl
            | cons c r' =>
              rw [List.dropWhile_cons, if_neg]
              have h1 : r.head? = some c := by rw [← e]; rfl
              have := List.head?_dropWhile_not (fun c => !delims.contains c) s
              rw [h, h1] at this
              simpa using this
        rw [if_neg e1, e2, if_neg]
        have := List.length_pos_iff.mpr hne
        simp only [List.length_append]
        omega

theorem skipBlanks_append_blank {b s : List Byte} (hb : AllBlank b) : skipBlanks (b ++ s) = skipBlanks s := by
  unfold skipBlanks
  exact List.dropWhile_append_of_pos (fun c hc => (isBlank_iff c).mpr (hb c hc))

theorem skipBlanks_head {s : List Byte} (h : ∀ c, s.head? = some c → isBlank c = false) : skipBlanks s = s := by
  cases s with
  | nil => rfl
  | cons c s =>
    unfold skipBlanks
    rw [List.dropWhile_cons, if_neg]
    simp [h c rfl]

theorem skipBlanks_head' (s : List Byte) : ∀ c, (skipBlanks s).head? = some c → isBlank c = false := by
  intro c hc
  have := List.head?_dropWhile_not isBlank s
  unfold skipBlanks at hc
  rw [hc] at this
  simpa using this

/-- The first token of a line that goes on after it, when the line is cut somewhere after the token. -/
theorem getToken_cut (e e' : List Byte) (t : Kpstr) (h : getToken (some e) = (t, some e')) :
    ∃ p, e = p ++ e' ∧ t.text ≠ [] ∧ e' ≠ [] ∧ (∀ c, e'.head? = some c → isBlank c = false) ∧
      ∀ q, (q = [] ∨ q.head? = e'.head?) →
      (getToken (some (p ++ q))).1.text = t.text ∧ (getToken (some (p ++ q))).2 = if q = [] then none else some q := by
  have hend : atEnd (skipBlanks e) = false := by
    by_contra hc
    rw [show getToken (some e) = _ from getTokenD_end delims e (by simpa using hc)] at h
    simp at h
  obtain ⟨b, hb, hs⟩ := skipBlanks_split e
  have hne : skipBlanks e ≠ [] := by intro h0; simp [atEnd, h0] at hend
  have hg : getToken (some e) = (⟨skipBlanks e, (skipBlanks e).length - (tokenEnd delims (skipBlanks e)).length⟩,
      if atEnd (skipBlanks (tokenEnd delims (skipBlanks e))) then none
      else some (skipBlanks (tokenEnd delims (skipBlanks e)))) := by
    simp [getToken, getTokenD, hend]
  rw [hg] at h
  simp only [Prod.mk.injEq] at h
  obtain ⟨h1, h2⟩ := h
  split at h2
  · simp at h2
  · rename_i hend2
    simp only [Option.some.injEq] at h2
    have hr : tokenEnd delims (skipBlanks e) ≠ [] := by
      intro h0
      rw [h0] at hend2
      exact hend2 (by decide)
    obtain ⟨tk, ht1, ht2, ht3⟩ := tokenEnd_cut (skipBlanks e) _ hne hr rfl
    obtain ⟨bl, hbl, hbs⟩ := skipBlanks_split (tokenEnd delims (skipBlanks e))
    generalize htk : tokenEnd delims (skipBlanks e) = r at *
    rw [h2] at hbs hend2
    have he' : e' ≠ [] := by intro h0; rw [h0] at hend2; exact hend2 (by decide)
    have hhead : ∀ c, e'.head? = some c → isBlank c = false := by
      rw [← h2]; exact skipBlanks_head' r
    have htxt : t.text = tk := by
      rw [← h1, ht1, List.length_append, Nat.add_sub_cancel, text_append]
    refine ⟨b ++ tk ++ bl, ?_, by rw [htxt]; exact ht2, he', hhead, ?_⟩
    · rw [hs, ht1, hbs]; simp
    · intro q hq
      have hq' : ∀ c, q.head? = some c → isBlank c = false := by
        intro c hc
        rcases hq with e1 | e1
        · subst e1; simp at hc
        · exact hhead c (by rw [← e1, hc])
      have hbq : (bl ++ q = [] ∨ (bl ++ q).head? = r.head?) := by
        cases bl with
        | nil =>
          rcases hq with e1 | e1
          · left; simp [e1]
          · right; rw [hbs]; simpa using e1
        | cons c bl => right; rw [hbs]; simp
      have htok := ht3 (bl ++ q) hbq
      have hsk : skipBlanks (b ++ tk ++ bl ++ q) = tk ++ (bl ++ q) := by
        rw [List.append_assoc, List.append_assoc, skipBlanks_append_blank hb]
        apply skipBlanks_head
        intro c hc
        have := skipBlanks_head' e c
        rw [ht1] at this
        apply this
        cases tk with
        | nil => exact absurd rfl ht2
        | cons a tk => simpa using hc
      have hae : atEnd (tk ++ (bl ++ q)) = false := by
        rw [ht1] at hend
        cases tk with
        | nil => exact absurd rfl ht2
        | cons a tk => simpa [atEnd] using hend
      have hae2 : atEnd q = decide (q = []) := by
        rcases hq with e1 | e1
        · subst e1; decide
        · have : ¬ atEnd e' = true := hend2
          simp only [atEnd, Bool.or_eq_true, decide_eq_true_eq, not_or] at this
          simp [atEnd, e1, this.2]
      have hsb : skipBlanks (bl ++ q) = q := by
        rw [skipBlanks_append_blank hbl, skipBlanks_head hq']
      have hg2 : getToken (some (b ++ tk ++ bl ++ q)) = (⟨tk ++ (bl ++ q), tk.length⟩, if q = [] then none else some q) := by
        simp only [getToken, getTokenD, hsk, hae, htok, hsb, hae2, List.length_append, Nat.add_sub_cancel]
        simp
      rw [hg2]
      exact ⟨by rw [text_append, htxt], rfl⟩

theorem ntoks_eq (s : List Byte) : ntoks s = (if (getToken (some s)).1.text = [] then [] else [(getToken (some s)).1.text]) ++
    (match (getToken (some s)).2 with | none => [] | some r => ntoks r) := by
  unfold ntoks
  rw [tokens_some, List.map_cons, List.filter_cons]
  have : (tokens (getToken (some s)).2).map Kpstr.text = match (getToken (some s)).2 with
      | none => [] | some r => (tokens (some r)).map Kpstr.text := by
    cases (getToken (some s)).2 with
    | none => rw [tokens_none]; rfl
    | some r => rfl
  rw [this]
  cases (getToken (some s)).2 <;> split <;> simp_all

theorem ntoks_nil : ntoks [] = [] := by rw [ntoks_eq]; decide +kernel

theorem ntoks_blank {b : List Byte} (hb : AllBlank b) (s : List Byte) : ntoks (b ++ s) = ntoks s := by
  have : getToken (some (b ++ s)) = getToken (some s) := by
    simp only [getToken, getTokenD, skipBlanks_append_blank hb]
  rw [ntoks_eq, this, ← ntoks_eq]

theorem ntoks_cut (e e' : List Byte) (t : Kpstr) (h : getToken (some e) = (t, some e')) :
    ∃ p, e = p ++ e' ∧ p ≠ [] ∧ ∀ q, (q = [] ∨ q.head? = e'.head?) → ntoks (p ++ q) = t.text :: ntoks q := by
  obtain ⟨p, h1, h2, h3, _, h4⟩ := getToken_cut e e' t h
  have hl := getTokenD_length delims (show (getTokenD delims (some e)).2 = some e' by
    rw [show getTokenD delims (some e) = _ from h])
  refine ⟨p, h1, by intro h0; rw [h0] at h1; rw [h1] at hl; simp at hl, fun q hq => ?_⟩
  obtain ⟨a, b⟩ := h4 q hq
  rw [ntoks_eq, a, b, if_neg h2]
  by_cases hq0 : q = []
  · simp [hq0, ntoks_nil]
  · simp [hq0]

/-- A delimiter that is not a blank, a newline or a quote is a token of its own. -/
theorem ntoks_delim (c : Byte) (x : List Byte) (hd : delims.contains c = true) (hb : isBlank c = false) (hn : c ≠ 10#8)
    (hq : c ≠ 34#8) : ntoks (c :: x) = [c] :: ntoks x := by
  have hs : skipBlanks (c :: x) = c :: x := skipBlanks_head (by simpa using hb)
  have ha : atEnd (c :: x) = false := by simp [atEnd, hn]
  have ht : tokenEnd delims (c :: x) = x := by
    unfold tokenEnd
    have e1 : ¬ (c :: x).head? = some 34#8 := by simpa using hq
    have e2 : (c :: x).dropWhile (fun c => !delims.contains c) = c :: x := by
      rw [List.dropWhile_cons, if_neg (by rw [hd]; decide)]
    dsimp only
    rw [if_neg e1, e2]
    simp
  have hg : getToken (some (c :: x)) = (⟨c :: x, 1⟩, if atEnd (skipBlanks x) then none else some (skipBlanks x)) := by
    simp only [getToken, getTokenD, hs, ha, ht, List.length_cons, Bool.false_eq_true, if_false]
    simp
  rw [ntoks_eq, hg]
  have e : (Kpstr.mk (c :: x) 1).text = [c] := by simp [Kpstr.text]
  rw [e]
  simp only [List.cons_ne_nil, if_false, List.cons_append, List.nil_append]
  congr 1
  obtain ⟨b, hb, hbs⟩ := skipBlanks_split x
  by_cases hae : atEnd (skipBlanks x) = true
  · rw [if_pos hae]
    simp only
    rw [ntoks_eq, show getToken (some x) = _ from getTokenD_end delims x hae]
    simp [Kpstr.text]
  · rw [if_neg hae]
    simp only
    conv => rhs; rw [hbs]
    rw [ntoks_blank hb]

theorem tok_one (t : Kpstr) (ht : t.Ok) (c : Byte) : (t.l = 1 ∧ t.s.head? = some c) ↔ t.text = [c] := by
  unfold Kpstr.Ok at ht
  unfold Kpstr.text
  constructor
  · rintro ⟨h1, h2⟩
    rw [h1]
    cases hs : t.s with
    | nil => simp [hs] at h2
    | cons a b => simp only [hs, List.head?_cons, Option.some.injEq] at h2; simp [h2]
  · intro h
    have hl := congrArg List.length h
    rw [List.length_take, List.length_singleton] at hl
    have h1 : t.l = 1 := by omega
    refine ⟨h1, ?_⟩
    rw [h1] at h
    cases hs : t.s with
    | nil => simp [hs] at h
    | cons a b => simp only [hs, List.take_succ_cons, List.take_zero, List.cons.injEq, and_true] at h; simp [h]

theorem tok_head (e : List Byte) (hb : ∀ c, e.head? = some c → isBlank c = false) (t : List Byte) (ts : List (List Byte))
    (h : ntoks e = t :: ts) : t.head? = e.head? := by
  by_cases hend : atEnd (skipBlanks e) = true
  · rw [ntoks_eq, show getToken (some e) = _ from getTokenD_end delims e hend] at h
    simp [Kpstr.text] at h
  · obtain ⟨b, tk, r, hbl, htk, hs, _, h1, _⟩ := getTokenD_some delims e (by simpa using hend)
    have h1' : (getToken (some e)).1 = ⟨tk ++ r, tk.length⟩ := h1
    rw [ntoks_eq, h1', text_append, if_neg htk] at h
    simp only [List.cons_append, List.nil_append, List.cons.injEq] at h
    have : b = [] := by
      cases b with
      | nil => rfl
      | cons c b =>
        have h2 := hb c (by rw [hs]; rfl)
        have h3 := hbl c (by simp)
        rw [(isBlank_iff c).mpr h3] at h2
        cases h2
    subst this
    rw [← h.1, hs]
    cases tk with
    | nil => exact absurd rfl htk
    | cons a tk => rfl

theorem withoutSeps_append {T : List (List Byte)} (hT : ∀ t ∈ T, commentTok t = false ∧ t ≠ lit ";") (X : List (List Byte)) :
    withoutSeps (T ++ X) = T ++ withoutSeps X := by
  induction T with
  | nil => rfl
  | cons t T ih =>
    have h := hT t (by simp)
    rw [List.cons_append, withoutSeps, if_neg (by simp [h.1]), if_neg h.2, ih (fun t ht => hT t (by simp [ht]))]
    rfl

theorem withoutSeps_self {T : List (List Byte)} (hT : ∀ t ∈ T, commentTok t = false ∧ t ≠ lit ";") : withoutSeps T = T := by
  have := withoutSeps_append hT []
  simpa [withoutSeps] using this

theorem lit_hash : lit "#" = [35#8] := by decide +kernel
theorem lit_semi : lit ";" = [59#8] := by decide +kernel
theorem lit_colon : lit ":" = [58#8] := by decide +kernel

theorem lit_slashes : lit "//" = [47#8, 47#8] := by decide +kernel

theorem tok_two (t : Kpstr) (ht : t.Ok) (c d : Byte) :
    (t.l = 2 ∧ t.s.head? = some c ∧ (t.s.drop 1).head? = some d) ↔ t.text = [c, d] := by
  unfold Kpstr.Ok at ht
  unfold Kpstr.text
  constructor
  · rintro ⟨h1, h2, h3⟩
    rw [h1]
    match hs : t.s with
    | [] => simp [hs] at h2
    | [_] => simp [hs] at h3
    | a :: b :: r => simp only [hs, List.head?_cons, List.drop_succ_cons, List.drop_zero, Option.some.injEq] at h2 h3; simp [h2, h3]
  · intro h
    have hl := congrArg List.length h
    rw [List.length_take] at hl
    simp only [List.length_cons, List.length_nil] at hl
    have h1 : t.l = 2 := by omega
    refine ⟨h1, ?_⟩
    rw [h1] at h
    match hs : t.s with
    | [] => simp [hs] at h
    | [_] => simp [hs] at h
    | a :: b :: r => simp only [hs, List.take_succ_cons, List.take_zero, List.cons.injEq, and_true] at h; simp [h.1, h.2]

theorem commentTok_iff (t : Kpstr) (ht : t.Ok) : commentTok t.text = true ↔
    (t.l = 1 ∧ t.s.head? = some 35#8) ∨
      (slashComments = true ∧ t.l = 2 ∧ t.s.head? = some 47#8 ∧ (t.s.drop 1).head? = some 47#8) := by
  rw [tok_one t ht, tok_two t ht]
  unfold commentTok slashComments
  rw [lit_hash, lit_slashes]
  simp

/-- What the scan of a statement gives. -/
def StmtEnd.Good (s : List Byte) : StmtEnd → Prop
  | .comment => OneStatement (ntoks s) ∧ withoutSeps (ntoks s) = ntoks s
  | .cut n none => OneStatement (ntoks (s.take n)) ∧ withoutSeps (ntoks s) = ntoks (s.take n)
  | .cut n (some r) => OneStatement (ntoks (s.take n)) ∧
      withoutSeps (ntoks s) = ntoks (s.take n) ++ withoutSeps (ntoks r)

theorem scan_spec : ∀ (n : Nat) (pre e : List Byte) (T : List (List Byte)) (first : Bool), e.length ≤ n →
    (∀ t ∈ T, commentTok t = false ∧ t ≠ lit ";") →
    ((first = true ∧ pre = [] ∧ T = []) ∨
      (first = false ∧ T ≠ [] ∧ e ≠ [] ∧ (∀ c, e.head? = some c → isBlank c = false) ∧
        (∀ q, (q = [] ∨ q.head? = e.head?) → ntoks (pre ++ q) = T ++ ntoks q) ∧
        (∀ t1 t2 r, T = t1 :: t2 :: r → t2 ≠ lit ":") ∧
        (∀ t1, T = [t1] → e.head? ≠ some 58#8 ∨ e = [58#8]))) →
    (scanStmt (pre ++ e) (some e) first).Good (pre ++ e) := by
  intro n
  induction n with
  | zero =>
    intro pre e T first he hT hI
    have : e = [] := List.length_eq_zero_iff.mp (by omega)
    subst this
    rcases hI with ⟨h1, h2, h3⟩ | ⟨_, _, h, _⟩
    · subst h2
      rw [scanStmt]
      have : getToken (some []) = (⟨[], 0⟩, none) := by decide +kernel
      split
      rename_i t se' hg
      rw [this] at hg
      simp only [Prod.mk.injEq] at hg
      obtain ⟨rfl, rfl⟩ := hg
      simp only [List.append_nil, List.length_nil, Nat.reduceEqDiff, false_and, and_false, if_false, StmtEnd.Good, List.take_nil,
        ntoks_nil]
      exact ⟨⟨rfl, by simp⟩, rfl⟩
    · exact absurd rfl h
  | succ n ih =>
    intro pre e T first he hT hI
    -- the tokens of the whole statement
    have hall : ntoks (pre ++ e) = T ++ ntoks e := by
      rcases hI with ⟨_, h2, h3⟩ | ⟨_, _, _, _, h, _⟩
      · subst h2; subst h3; rfl
      · exact h e (Or.inr rfl)
    -- the second token is a colon only at the end
    have hcol : ∀ t1 r, T ++ ntoks e = t1 :: lit ":" :: r → T ≠ [] → r = [] := by
      intro t1 r h hne
      rcases hI with ⟨_, _, h3⟩ | ⟨_, _, h0, hb, _, h5, h6⟩
      · exact absurd h3 hne
      · match T, hne with
        | [x], _ =>
          simp only [List.cons_append, List.nil_append, List.cons.injEq] at h
          rcases h6 x rfl with h7 | h7
          · have := tok_head e hb _ _ h.2
            rw [lit_colon] at this
            exact absurd this.symm h7
          · rw [h7] at h
            have : ntoks [58#8] = [lit ":"] := by
              rw [ntoks_delim 58#8 [] (by decide) (by decide) (by decide) (by decide), ntoks_nil, lit_colon]
            rw [this] at h
            simpa using h.2.symm
        | x :: y :: l, _ =>
          simp only [List.cons_append, List.cons.injEq] at h
          exact absurd h.2.1 (h5 x y l rfl)
    rw [scanStmt]
    split
    rename_i t se' hg
    have hok : t.Ok := by have := getToken_ok (some e); rw [hg] at this; exact this
    have htk : ntoks e = (if t.text = [] then [] else [t.text]) ++ se'.elim [] ntoks := by
      rw [ntoks_eq, hg]
      cases se' <;> rfl
    have hncom : commentTok [] = false := by unfold commentTok; rw [lit_hash, lit_slashes]; simp
    have hcom : commentTok t.text = true → StmtEnd.Good (pre ++ e) .comment := by
      intro hc
      have hne0 : t.text ≠ [] := fun h0 => by rw [h0, hncom] at hc; cases hc
      have hw : withoutSeps (ntoks (pre ++ e)) = ntoks (pre ++ e) := by
        rw [hall, withoutSeps_append hT, htk, if_neg hne0]
        simp [withoutSeps, hc]
      refine ⟨⟨hw, ?_⟩, hw⟩
      intro t1 r h hne
      rw [hall] at h
      by_cases hTe : T = []
      · subst hTe
        rw [htk, if_neg hne0] at h
        simp only [List.nil_append, List.cons_append, List.cons.injEq] at h
        rw [← h.1, hc] at hne
        cases hne
      · exact hcol t1 r h hTe
    by_cases hc1 : t.l = 1 ∧ t.s.head? = some 35#8
    · rw [if_pos hc1]
      exact hcom ((commentTok_iff t hok).mpr (Or.inl hc1))
    rw [if_neg hc1]
    by_cases hc2 : slashComments = true ∧ t.l = 2 ∧ t.s.head? = some 47#8 ∧ (t.s.drop 1).head? = some 47#8
    · rw [if_pos hc2]
      exact hcom ((commentTok_iff t hok).mpr (Or.inr hc2))
    · rw [if_neg hc2]
      have hc : commentTok t.text = false := by
        rw [← Bool.not_eq_true, commentTok_iff t hok]
        exact fun h => h.elim hc1 hc2
      have hTone : ∀ (X : List (List Byte)), T ++ X = T ++ X → OneStatement T := by
        intro _ _
        refine ⟨withoutSeps_self hT, fun t1 r h _ => ?_⟩
        rcases hI with ⟨_, _, h3⟩ | ⟨_, _, _, _, _, h5, _⟩
        · rw [h3] at h; cases h
        · exact absurd rfl (h5 t1 _ r h)
      by_cases hs : t.l = 1 ∧ t.s.head? = some 59#8
      · rw [if_pos hs]
        rw [tok_one t hok] at hs
        -- the piece is everything before the semicolon
        have hend : atEnd (skipBlanks e) = false := by
          by_contra hx
          rw [show getToken (some e) = _ from getTokenD_end delims e (by simpa using hx)] at hg
          simp only [Prod.mk.injEq] at hg
          rw [← hg.1] at hs
          simp [Kpstr.text] at hs
        have hts : t.s = skipBlanks e := by
          have : (getToken (some e)).1.s = skipBlanks e := by simp [getToken, getTokenD, hend]
          rw [hg] at this
          exact this
        obtain ⟨b, hb, hbs⟩ := skipBlanks_split e
        have htake : (pre ++ e).take ((pre ++ e).length - t.s.length) = pre ++ b := by
          rw [hts]
          generalize skipBlanks e = u at hbs
          rw [hbs, ← List.append_assoc, List.length_append, Nat.add_sub_cancel]
          exact List.take_left
        have hnt : ntoks (pre ++ b) = T := by
          rcases hI with ⟨_, h2, h3⟩ | ⟨_, _, _, h4, h5, _⟩
          · subst h2; subst h3
            have := ntoks_blank hb []
            rw [List.append_nil, ntoks_nil] at this
            simpa using this
          · have : b = [] := by
              cases b with
              | nil => rfl
              | cons c b =>
                have h7 := h4 c (by rw [hbs]; rfl)
                have h8 := hb c (by simp)
                rw [(isBlank_iff c).mpr h8] at h7
                cases h7
            subst this
            rw [h5 [] (Or.inl rfl), ntoks_nil, List.append_nil]
        have hone := hTone [] rfl
        have hw : withoutSeps (ntoks (pre ++ e)) = T ++ withoutSeps (se'.elim [] ntoks) := by
          rw [hall, withoutSeps_append hT, htk, if_neg (by simp [hs]), hs]
          rw [List.cons_append, List.nil_append, withoutSeps, if_neg (by
            unfold commentTok; rw [lit_hash, lit_slashes]; simp), if_pos lit_semi.symm]
        cases se' with
        | none =>
          simp only [StmtEnd.Good]
          rw [htake, hnt]
          exact ⟨hone, by rw [hw]; simp [withoutSeps]⟩
        | some e' =>
          simp only [StmtEnd.Good]
          rw [htake, hnt]
          exact ⟨hone, hw⟩
      · rw [if_neg hs]
        rw [tok_one t hok] at hs
        rw [← lit_semi] at hs
        cases se' with
        | none =>
          simp only [StmtEnd.Good]
          rw [List.take_length]
          have hw : withoutSeps (ntoks (pre ++ e)) = ntoks (pre ++ e) := by
            rw [hall, htk]
            simp only [Option.elim_none, List.append_nil]
            apply withoutSeps_self
            intro x hx
            rcases List.mem_append.mp hx with hx | hx
            · exact hT x hx
            · split at hx
              · simp at hx
              · simp only [List.mem_singleton] at hx
                subst hx
                exact ⟨hc, hs⟩
          refine ⟨⟨hw, ?_⟩, hw⟩
          intro t1 r h _
          rw [hall] at h
          by_cases hTe : T = []
          · subst hTe
            rw [htk] at h
            split at h <;> simp at h
          · exact hcol t1 r h hTe
        | some e' =>
          obtain ⟨p, hp1, hp2, hp3⟩ := ntoks_cut e e' t hg
          obtain ⟨_, _, hp4, hp5, hp6, _⟩ := getToken_cut e e' t hg
          have hl : e'.length < e.length := getTokenD_length delims (show (getTokenD delims (some e)).2 = some e' by
            rw [show getTokenD delims (some e) = _ from hg])
          have hpre : ∀ q, (q = [] ∨ q.head? = e'.head?) → ntoks (pre ++ (p ++ q)) = T ++ t.text :: ntoks q := by
            intro q hq
            rcases hI with ⟨_, h2, h3⟩ | ⟨_, _, _, _, h5, _⟩
            · subst h2; subst h3
              simpa using hp3 q hq
            · rw [h5 (p ++ q), hp3 q hq]
              right
              rw [hp1]
              cases p with
              | nil => exact absurd rfl hp2
              | cons a p => rfl
          dsimp only
          by_cases hlab : first = true ∧ e'.head? = some 58#8 ∧ e'.drop 1 ≠ []
          · rw [if_pos hlab]
            obtain ⟨l1, l2, l3⟩ := hlab
            have hfst : pre = [] ∧ T = [] := by
              rcases hI with ⟨_, h2, h3⟩ | ⟨h1, _⟩
              · exact ⟨h2, h3⟩
              · rw [l1] at h1; cases h1
            obtain ⟨rfl, rfl⟩ := hfst
            obtain ⟨x, hx⟩ : ∃ x, e' = 58#8 :: x := by
              cases e' with
              | nil => simp at l2
              | cons a x => simp only [List.head?_cons, Option.some.injEq] at l2; exact ⟨x, by rw [l2]⟩
            subst hx
            simp only [StmtEnd.Good, List.drop_succ_cons, List.drop_zero, List.nil_append]
            have htake : e.take (e.length - (58#8 :: x).length + 1) = p ++ [58#8] := by
              rw [hp1, List.length_append, Nat.add_sub_cancel]
              rw [show p ++ 58#8 :: x = (p ++ [58#8]) ++ x by simp]
              rw [show p.length + 1 = (p ++ [58#8]).length by simp]
              exact List.take_left
            have hd := ntoks_delim 58#8 x (by decide) (by decide) (by decide) (by decide)
            have hd0 := ntoks_delim 58#8 [] (by decide) (by decide) (by decide) (by decide)
            rw [ntoks_nil] at hd0
            have h1 : ntoks (p ++ [58#8]) = [t.text, [58#8]] := by
              rw [hp3 [58#8] (Or.inr rfl), hd0]
            have h2 : ntoks e = t.text :: [58#8] :: ntoks x := by
              rw [hp1, hp3 _ (Or.inr rfl), hd]
            have n1 : ¬ commentTok [58#8] = true := by unfold commentTok; rw [lit_hash, lit_slashes]; simp
            have n2 : ¬ [58#8] = lit ";" := by rw [lit_semi]; decide
            rw [htake, h1, h2]
            refine ⟨⟨?_, ?_⟩, ?_⟩
            · simp [withoutSeps, hc, hs, n1, n2]
            · intro t1 r h _
              simp only [List.cons.injEq] at h
              exact h.2.2.symm
            · simp [withoutSeps, hc, hs, n1, n2]
          · rw [if_neg hlab]
            have := ih (pre ++ p) e' (T ++ [t.text]) false (by omega) ?_ ?_
            · rw [List.append_assoc, ← hp1] at this
              exact this
            · intro x hx
              rcases List.mem_append.mp hx with hx | hx
              · exact hT x hx
              · simp only [List.mem_singleton] at hx
                subst hx
                exact ⟨hc, hs⟩
            · right
              refine ⟨rfl, by simp, hp5, hp6, ?_, ?_, ?_⟩
              · intro q hq
                rw [List.append_assoc, hpre q hq]
                simp
              · intro t1 t2 r h h2
                rcases hI with ⟨_, _, h3⟩ | ⟨_, hTne, h0, hb, _, h5, h6⟩
                · rw [h3] at h; simp at h
                · match T, hTne with
                  | [y], _ =>
                    simp only [List.cons_append, List.nil_append, List.cons.injEq] at h
                    have hhead := tok_head e hb t.text (ntoks e') (by rw [hp1]; exact hp3 e' (Or.inr rfl))
                    rw [h.2.1, h2, lit_colon] at hhead
                    rcases h6 y rfl with h7 | h7
                    · exact h7 hhead.symm
                    · rw [h7] at hl
                      simp only [List.length_singleton] at hl
                      exact hp5 (List.length_eq_zero_iff.mp (by omega))
                  | y :: z :: l, _ =>
                    simp only [List.cons_append, List.cons.injEq] at h
                    exact h5 y z l rfl (by rw [h.2.1, h2])
              · intro t1 h
                by_cases hTe : T = []
                · have hf : first = true := by
                    rcases hI with ⟨h1, _⟩ | ⟨_, h2, _⟩
                    · exact h1
                    · exact absurd hTe h2
                  by_cases h8 : e'.head? = some 58#8
                  · right
                    have h9 : e'.drop 1 = [] := by
                      by_contra h9
                      exact hlab ⟨hf, h8, h9⟩
                    cases e' with
                    | nil => exact absurd rfl hp5
                    | cons a x =>
                      simp only [List.drop_succ_cons, List.drop_zero] at h9
                      simp only [List.head?_cons, Option.some.injEq] at h8
                      rw [h8, h9]
                  · exact Or.inl h8
                · exfalso
                  have := congrArg List.length h
                  simp only [List.length_append, List.length_cons, List.length_nil] at this
                  have := List.length_pos_iff.mpr hTe
                  omega

theorem splitStmts_spec : ∀ (n : Nat) (s : List Byte), s.length ≤ n →
    ((splitStmts s).map fun p => ntoks p.1).flatten = withoutSeps (ntoks s) ∧
      ∀ p ∈ splitStmts s, OneStatement (ntoks p.1) := by
  intro n
  induction n with
  | zero =>
    intro s hs
    have : s = [] := List.length_eq_zero_iff.mp (by omega)
    subst this
    rw [splitStmts]
    simp [ntoks_nil, withoutSeps]
  | succ n ih =>
    intro s hs
    rw [splitStmts]
    by_cases h0 : s = []
    · subst h0
      simp [ntoks_nil, withoutSeps]
    · rw [if_neg h0]
      have hgood := scan_spec s.length [] s [] true (Nat.le_refl _) (by simp) (Or.inl ⟨rfl, rfl, rfl⟩)
      rw [List.nil_append] at hgood
      split
      · rename_i h
        rw [h] at hgood
        simp only [StmtEnd.Good] at hgood
        simp [hgood.1, hgood.2]
      · rename_i k h
        rw [h] at hgood
        simp only [StmtEnd.Good] at hgood
        simp [hgood.1, hgood.2]
      · rename_i k r h
        rw [h] at hgood
        simp only [StmtEnd.Good] at hgood
        obtain ⟨e, h1, h2⟩ := scanStmt_rest s (some s) true k r h
        simp only [Option.some.injEq] at h1
        subst h1
        obtain ⟨i1, i2⟩ := ih r (by omega)
        refine ⟨by simp [i1, hgood.2], ?_⟩
        intro p hp
        rcases List.mem_cons.mp hp with rfl | hp
        · exact hgood.1
        · exact i2 p hp

theorem ntoks_subset : ∀ (n : Nat) (s : List Byte), s.length ≤ n → ∀ t ∈ ntoks s, ∀ c ∈ t, c ∈ s := by
  intro n
  induction n with
  | zero =>
    intro s hs
    have : s = [] := List.length_eq_zero_iff.mp (by omega)
    subst this
    simp [ntoks_nil]
  | succ n ih =>
    intro s hs t ht c hc
    by_cases hend : atEnd (skipBlanks s) = true
    · rw [ntoks_eq, show getToken (some s) = _ from getTokenD_end delims s hend] at ht
      simp [Kpstr.text] at ht
    · obtain ⟨b, tk, r, hbl, htk, hs', _, h1, _⟩ := getTokenD_some delims s (by simpa using hend)
      have h1' : (getToken (some s)).1 = ⟨tk ++ r, tk.length⟩ := h1
      rw [ntoks_eq, h1', text_append, if_neg htk] at ht
      simp only [List.cons_append, List.nil_append] at ht
      rcases List.mem_cons.mp ht with e | ht
      · subst e
        rw [hs']
        simp [hc]
      · cases hr : (getToken (some s)).2 with
        | none => simp [hr] at ht
        | some r' =>
          simp only [hr] at ht
          have hl := getTokenD_length delims (show (getTokenD delims (some s)).2 = some r' from hr)
          have := ih r' (by omega) t ht c hc
          obtain ⟨p, hp, _⟩ := getToken_cut s r' _ (Prod.ext rfl hr)
          rw [hp]
          simp [this]

/-- C60.  The statements of a line have together, in order, exactly the tokens of the line, without the semicolons that
separated them; every one of them is a single statement, and a label is a statement of its own. -/
theorem C60_line (s : List Byte) :
    ((splitLine s).map fun p => ntoks p.1).flatten = withoutSeps (ntoks s) ∧
      ∀ p ∈ splitLine s, OneStatement (ntoks p.1) := by
  unfold splitLine
  split
  · exact splitStmts_spec _ s (Nat.le_refl _)
  · rename_i h
    have hno : ∀ t ∈ ntoks s, t ≠ lit ";" ∧ t ≠ lit ":" := by
      intro t ht
      constructor
      · intro e
        have := ntoks_subset _ s (Nat.le_refl _) t ht 59#8 (by rw [e, lit_semi]; simp)
        apply h
        rw [List.any_eq_true]
        exact ⟨_, this, by decide⟩
      · intro e
        have := ntoks_subset _ s (Nat.le_refl _) t ht 58#8 (by rw [e, lit_colon]; simp)
        apply h
        rw [List.any_eq_true]
        exact ⟨_, this, by decide⟩
    have hw : ∀ ts : List (List Byte), (∀ t ∈ ts, t ≠ lit ";" ∧ t ≠ lit ":") → withoutSeps ts = ts := by
      intro ts
      induction ts with
      | nil => intro _; rfl
      | cons t ts ih =>
        intro hts
        rw [withoutSeps]
        split
        · rfl
        · rw [if_neg (hts t (by simp)).1, ih (fun t ht => hts t (by simp [ht]))]
    refine ⟨by simp [hw _ hno], ?_⟩
    intro p hp
    simp only [List.mem_singleton] at hp
    subst hp
    refine ⟨hw _ hno, fun t1 r e _ => ?_⟩
    exact absurd rfl (hno (lit ":") (by rw [e]; simp)).2

theorem splitLines_spec : ∀ (lines : List (List Byte)) (i nr sz : Nat) (out : List (List Byte × Nat)),
    splitLines lines i nr sz = some out →
      out = ((lines.zipIdx i).map fun x => (splitLine x.1).map fun p => (p.1, x.2)).flatten := by
  intro lines
  induction lines with
  | nil => intro i nr sz out h; simp only [splitLines, Option.some.injEq] at h; subst h; rfl
  | cons s rest ih =>
    intro i nr sz out h
    rw [splitLines] at h
    generalize (if nr + 1000 ≥ sz ∨ i = 0 then sz * 2 else sz) = sz' at h
    split at h
    · cases h
    · rw [Option.map_eq_some_iff] at h
      obtain ⟨o, ho, rfl⟩ := h
      rw [ih _ _ _ _ ho]
      rfl

/-- C60 for a file: the statements are those of its lines in order, each with the number of its line; a line without
`;` and `:` is a statement as it is. -/
theorem C60_file (lines : List (List Byte)) (out : List (List Byte × Nat)) (h : initMultilines lines = some out) :
    (out.map fun x => ntoks x.1).flatten = (lines.map fun l => withoutSeps (ntoks l)).flatten ∧
    (out.map (·.2)).Pairwise (· ≤ ·) ∧
    (∀ x ∈ out, OneStatement (ntoks x.1) ∧ x.2 < lines.length) ∧
    (∀ (i : Nat) (l : List Byte), lines[i]? = some l →
      ((out.filter fun x => x.2 = i).map fun x => ntoks x.1).flatten = withoutSeps (ntoks l) ∧
      (59#8 ∉ l → 58#8 ∉ l → out.filter (fun x => x.2 = i) = [(l, i)])) := by
  have hout := splitLines_spec lines 0 0 64 out h
  have hgen : ∀ (ls : List (List Byte)) (k : Nat),
      let o := ((ls.zipIdx k).map fun x => (splitLine x.1).map fun p => (p.1, x.2)).flatten
      (o.map fun x => ntoks x.1).flatten = (ls.map fun l => withoutSeps (ntoks l)).flatten ∧
      (o.map (·.2)).Pairwise (· ≤ ·) ∧ (∀ x ∈ o, OneStatement (ntoks x.1) ∧ k ≤ x.2 ∧ x.2 < k + ls.length) ∧
      (∀ (i : Nat) (l : List Byte), ls[i]? = some l →
        o.filter (fun x => x.2 = k + i) = (splitLine l).map fun p => (p.1, k + i)) := by
    intro ls
    induction ls with
    | nil => intro k; simp
    | cons s ls ih =>
      intro k
      have ih := ih (k + 1)
      dsimp only at ih ⊢
      rw [List.zipIdx_cons, List.map_cons, List.flatten_cons]
      generalize ((ls.zipIdx (k + 1)).map fun x => (splitLine x.1).map fun p => (p.1, x.2)).flatten = o at ih
      obtain ⟨i1, i2, i3, i4⟩ := ih
      obtain ⟨l1, l2⟩ := C60_line s
      refine ⟨?_, ?_, ?_, ?_⟩
      · rw [List.map_append, List.flatten_append, i1, List.map_cons, List.flatten_cons, ← l1, List.map_map]
        rfl
      · rw [List.map_append, List.pairwise_append]
        refine ⟨?_, i2, ?_⟩
        · rw [List.map_map]
          apply List.pairwise_of_forall_mem_list
          intro a ha b hb
          simp only [List.mem_map, Function.comp_apply] at ha hb
          obtain ⟨_, _, rfl⟩ := ha
          obtain ⟨_, _, rfl⟩ := hb
          exact Nat.le_refl _
        · intro a ha b hb
          simp only [List.map_map, List.mem_map, Function.comp_apply] at ha hb
          obtain ⟨_, _, rfl⟩ := ha
          obtain ⟨y, hy, rfl⟩ := hb
          have := (i3 y hy).2.1
          omega
      · intro x hx
        rcases List.mem_append.mp hx with hx | hx
        · simp only [List.mem_map] at hx
          obtain ⟨p, hp, rfl⟩ := hx
          exact ⟨l2 p hp, Nat.le_refl _, by simp⟩
        · have := i3 x hx
          simp only [List.length_cons]
          exact ⟨this.1, by omega, by omega⟩
      · intro i l hl
        rw [List.filter_append]
        cases i with
        | zero =>
          simp only [List.getElem?_cons_zero, Option.some.injEq] at hl
          subst hl
          rw [Nat.add_zero]
          have e1 : ((splitLine s).map fun p => (p.1, k)).filter (fun x => decide (x.2 = k)) =
              (splitLine s).map fun p => (p.1, k) := by
            rw [List.filter_eq_self]
            intro x hx
            simp only [List.mem_map] at hx
            obtain ⟨_, _, rfl⟩ := hx
            simp
          have e2 : o.filter (fun x => decide (x.2 = k)) = [] := by
            rw [List.filter_eq_nil_iff]
            intro x hx
            have := (i3 x hx).2.1
            simp only [decide_eq_true_eq]
            omega
          rw [e1, e2, List.append_nil]
        | succ i =>
          simp only [List.getElem?_cons_succ] at hl
          have e1 : ((splitLine s).map fun p => (p.1, k)).filter (fun x => decide (x.2 = k + (i + 1))) = [] := by
            rw [List.filter_eq_nil_iff]
            intro x hx
            simp only [List.mem_map] at hx
            obtain ⟨_, _, rfl⟩ := hx
            simp only [decide_eq_true_eq]
            omega
          rw [e1, List.nil_append, show k + (i + 1) = k + 1 + i by omega]
          exact i4 i l hl
  have hg := hgen lines 0
  dsimp only at hg
  rw [← hout] at hg
  obtain ⟨g1, g2, g3, g4⟩ := hg
  refine ⟨g1, g2, fun x hx => ⟨(g3 x hx).1, by have := (g3 x hx).2.2; omega⟩, ?_⟩
  intro i l hl
  have := g4 i l hl
  rw [Nat.zero_add] at this
  rw [this]
  refine ⟨?_, ?_⟩
  · rw [List.map_map, ← (C60_line l).1]; rfl
  · intro h1 h2
    have : splitLine l = [(l, false)] := by
      unfold splitLine
      rw [if_neg]
      rw [List.any_eq_true]
      rintro ⟨c, hc, hcc⟩
      simp only [Bool.or_eq_true, decide_eq_true_eq] at hcc
      rcases hcc with rfl | rfl
      · exact h1 hc
      · exact h2 hc
    rw [this]
    rfl

/-- C60: a file all of whose lines have at most 100 statements is accepted. -/
theorem C60_small_lines (lines : List (List Byte)) (h : ∀ l ∈ lines, (splitLine l).length ≤ 100) :
    (initMultilines lines).isSome = true := by
  have key : ∀ (ls : List (List Byte)) (i nr sz : Nat), (∀ l ∈ ls, (splitLine l).length ≤ 100) → nr < sz → 64 ≤ sz →
      (i = 0 → nr = 0) → (0 < i → 128 ≤ sz) → (splitLines ls i nr sz).isSome = true := by
    intro ls
    induction ls with
    | nil => intros; rfl
    | cons s ls ih =>
      intro i nr sz hs h1 h2 h3 h4
      rw [splitLines]
      have hlen := hs s (by simp)
      have hchk : ((splitLine s).filter (·.2)).length ≤ (splitLine s).length := List.length_filter_le ..
      generalize hsz : (if nr + 1000 ≥ sz ∨ i = 0 then sz * 2 else sz) = sz'
      have hsz' : nr + (splitLine s).length < sz' ∧ 128 ≤ sz' := by
        by_cases hi : i = 0
        · have := h3 hi
          rw [if_pos (Or.inr hi)] at hsz
          omega
        · have := h4 (by omega)
          split at hsz <;> omega
      rw [if_neg (by omega)]
      rw [Option.isSome_map]
      exact ih (i + 1) _ _ (fun l hl => hs l (by simp [hl])) (by omega) (by omega) (by omega) (by omega)
  exact key lines 0 0 64 h (by omega) (by omega) (fun _ => rfl) (by omega)

end Target

section X86

attribute [local instance] x86Asm

/-- A line with a label, two statements and a comment. -/
example : initMultilines [[], lit "f: nop; .string \"a;b\" # c; d"] =
    some [([], 0), (lit "f:", 1), (lit " nop", 1), (lit ".string \"a;b\" # c; d", 1)] := by decide +kernel

end X86

section A64

attribute [local instance] a64Asm

/-- The same with the comments of AArch64. -/
example : initMultilines [[], lit "f: nop; .string \"a;b\" // c; d"] =
    some [([], 0), (lit "f:", 1), (lit " nop", 1), (lit ".string \"a;b\" // c; d", 1)] := by decide +kernel

end A64

end Verif
