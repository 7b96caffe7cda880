import Verif.Spec.Token
import Verif.Props.Kpstr
/-
Lemmas about the tokenizer.
-/
namespace Verif

theorem isBlank_iff (c : Byte) : isBlank c = true ↔ (c = 32#8 ∨ c = 9#8) := by simp [isBlank]

theorem skipBlanks_split (s : List Byte) : ∃ b, AllBlank b ∧ s = b ++ skipBlanks s := by
  refine ⟨s.takeWhile isBlank, ?_, (List.takeWhile_append_dropWhile).symm⟩
  intro c hc
  induction s with
  | nil => simp at hc
  | cons d s ih =>
    rw [List.takeWhile_cons] at hc
    split at hc
    · rename_i hd
      rcases List.mem_cons.mp hc with e | e
      · subst e; exact (isBlank_iff _).mp hd
      · exact ih e
    · simp at hc

theorem quoteEnd_suffix : ∀ s : List Byte, quoteEnd s <:+ s := by
  intro s
  fun_induction quoteEnd s with
  | case1 => simp
  | case2 => simp
  | case3 => simp
  | case4 => simp
  | case5 d r _ ih => exact ih.trans ⟨[_, d], rfl⟩
  | case6 c d r _ _ ih => exact ih.trans ⟨[c], rfl⟩

theorem drop_suffix' (n : Nat) (s : List Byte) : s.drop n <:+ s := List.drop_suffix n s

theorem tokenEnd_suffix (delim s : List Byte) : tokenEnd delim s <:+ s := by
  have key : ∀ e : List Byte, e <:+ s → (if e.length = s.length then s.drop 1 else e) <:+ s := by
    intro e he
    split
    · exact List.drop_suffix _ _
    · exact he
  unfold tokenEnd
  apply key
  split
  · have := (quoteEnd_suffix (s.drop 1)).trans (List.drop_suffix 1 s)
    dsimp only
    split
    · exact (List.drop_suffix _ _).trans this
    · exact this
  · exact List.dropWhile_suffix _

/-- A token that is found: blanks, its text, and the rest; what is left for the next call starts after blanks. -/
theorem getTokenD_some (delim s : List Byte) (h : atEnd (skipBlanks s) = false) :
    ∃ b t r, AllBlank b ∧ t ≠ [] ∧ s = b ++ t ++ r ∧ r = tokenEnd delim (skipBlanks s) ∧
      (getTokenD delim (some s)).1 = ⟨t ++ r, t.length⟩ ∧
      (getTokenD delim (some s)).2 = if atEnd (skipBlanks r) then none else some (skipBlanks r) := by
  obtain ⟨b, hb, hs⟩ := skipBlanks_split s
  obtain ⟨t, ht⟩ := tokenEnd_suffix delim (skipBlanks s)
  have hne : skipBlanks s ≠ [] := by intro e; simp [atEnd, e] at h
  have hl := tokenEnd_length delim (skipBlanks s) hne
  have hlen : (skipBlanks s).length - (tokenEnd delim (skipBlanks s)).length = t.length := by
    have := congrArg List.length ht
    rw [List.length_append] at this
    omega
  refine ⟨b, t, _, hb, ?_, ?_, rfl, ?_, ?_⟩
  · intro e
    have := congrArg List.length ht
    simp [e] at this
    omega
  · rw [List.append_assoc, ht]; exact hs
  · simp only [getTokenD, h, hlen, ht]
    simp
  · simp only [getTokenD, h]
    simp

theorem getTokenD_end (delim s : List Byte) (h : atEnd (skipBlanks s) = true) :
    getTokenD delim (some s) = (⟨[], 0⟩, none) := by simp [getTokenD, h]

theorem tokens_none : tokens none = [] := by rw [tokens]

theorem tokens_some (s : List Byte) : tokens (some s) = (getToken (some s)).1 :: tokens (getToken (some s)).2 := by
  rw [tokens]
  split
  · rename_i t heq; rw [heq, tokens_none]
  · rename_i t r heq; rw [heq]

theorem text_append (t r : List Byte) : (Kpstr.mk (t ++ r) t.length).text = t := by simp [Kpstr.text]

theorem atEnd_iff (s : List Byte) : atEnd s = true ↔ (s = [] ∨ s.head? = some 10#8) := by simp [atEnd]

theorem skipBlanks_idem (s : List Byte) : skipBlanks (skipBlanks s) = skipBlanks s := by
  unfold skipBlanks
  induction s with
  | nil => rfl
  | cons c s ih =>
    simp only [List.dropWhile_cons]
    split
    · exact ih
    · rename_i h; rw [List.dropWhile_cons, if_neg h]

theorem spaced_blank {b s : List Byte} {ts : List (List Byte)} (hb : AllBlank b) (h : Spaced s ts) : Spaced (b ++ s) ts := by
  cases h with
  | done b' r h1 h2 =>
    rw [← List.append_assoc]
    exact .done _ _ (by intro c hc; rcases List.mem_append.mp hc with e | e; exact hb c e; exact h1 c e) h2
  | tok b' t rest ts h1 h2 h3 =>
    rw [← List.append_assoc, ← List.append_assoc]
    exact .tok _ _ _ _ (by intro c hc; rcases List.mem_append.mp hc with e | e; exact hb c e; exact h1 c e) h2 h3

theorem spaced_tokens : ∀ (n : Nat) (s : List Byte), s.length ≤ n → atEnd (skipBlanks s) = false →
    Spaced s ((tokens (some s)).map Kpstr.text) := by
  intro n
  induction n with
  | zero =>
    intro s hl h
    have : s = [] := List.length_eq_zero_iff.mp (by omega)
    subst this; simp [skipBlanks, atEnd] at h
  | succ n ih =>
    intro s hl h
    obtain ⟨b, t, r, hb, ht, hs, _, h1, h2⟩ := getTokenD_some delims s h
    have h1' : (getToken (some s)).1 = ⟨t ++ r, t.length⟩ := h1
    have h2' : (getToken (some s)).2 = _ := h2
    rw [tokens_some, h1', h2', List.map_cons, text_append]
    obtain ⟨b', hb', hr⟩ := skipBlanks_split r
    have hsp : Spaced r (List.map Kpstr.text
        (tokens (if atEnd (skipBlanks r) = true then none else some (skipBlanks r)))) := by
      split
      · rename_i he
        rw [tokens_none, List.map_nil, hr]
        exact .done _ _ hb' ((atEnd_iff _).mp he)
      · rename_i he
        conv => lhs; rw [hr]
        apply spaced_blank hb'
        apply ih
        · have e1 := congrArg List.length hs
          have e2 := congrArg List.length hr
          have e3 : 0 < t.length := List.length_pos_iff.mpr ht
          simp only [List.length_append] at e1 e2
          omega
        · rw [skipBlanks_idem]; simpa using he
    conv => lhs; rw [hs]
    exact .tok _ _ _ _ hb ht hsp

end Verif
