import Verif.Model.Gotpcrel
import Verif.Spec.X86Mov
import Verif.Proof.Token
import Verif.Props.Dbgfilter
/-
Lemmas about the rewriting of moves and about the text of instructions.
-/
namespace Verif

attribute [local instance] x86Asm

/-! ### Tokens of operands -/

/-- Text without blanks, commas, newlines and quotes: one operand. -/
def OpText (t : List Byte) : Prop := ∀ c ∈ t, c ≠ 32#8 ∧ c ≠ 9#8 ∧ c ≠ 44#8 ∧ c ≠ 10#8 ∧ c ≠ 34#8

theorem OpText.drop {t : List Byte} (h : OpText t) (k : Nat) : OpText (t.drop k) :=
  fun c hc => h c (List.mem_of_mem_drop hc)

theorem skipBlanks_cons {c : Byte} {r : List Byte} (h : c ≠ 32#8) (h' : c ≠ 9#8) : skipBlanks (c :: r) = c :: r := by
  have : isBlank c = false := by simp [isBlank, h, h']
  simp [skipBlanks, List.dropWhile_cons, this]

theorem skipBlanks_op {t rest : List Byte} (h : OpText t) (hr : rest = [] ∨ rest.head? = some 44#8) :
    skipBlanks (t ++ rest) = t ++ rest := by
  cases t with
  | nil =>
    cases rest with
    | nil => rfl
    | cons c r =>
      simp only [List.head?_cons, Option.some.injEq, reduceCtorEq, false_or] at hr
      subst hr
      exact skipBlanks_cons (by decide) (by decide)
  | cons c t =>
    have := h c (List.mem_cons_self ..)
    exact skipBlanks_cons this.1 this.2.1

/-- The first token of an operand. -/
theorem getToken_op {t rest : List Byte} (h : OpText t) (hne : t ≠ []) (hr : rest = [] ∨ rest.head? = some 44#8) :
    ∃ k, 1 ≤ k ∧ k ≤ t.length ∧ getToken (some (t ++ rest)) =
      (⟨t ++ rest, k⟩, if t.drop k ++ rest = [] then none else some (t.drop k ++ rest)) := by
  have hs := skipBlanks_op h hr
  obtain ⟨c, t, rfl⟩ := List.exists_cons_of_ne_nil hne
  have hc := h c (List.mem_cons_self ..)
  have hend : atEnd (c :: t ++ rest) = false := by
    cases he : atEnd (c :: t ++ rest) with
    | false => rfl
    | true => rw [atEnd_iff] at he; simp at he; exact absurd he hc.2.2.2.1
  have hq : ¬ (c :: t ++ rest).head? = some 34#8 := by simpa using hc.2.2.2.2
  -- where the token ends
  have hcut : ∃ k, 1 ≤ k ∧ k ≤ (c :: t).length ∧ tokenEnd delims (c :: t ++ rest) = (c :: t).drop k ++ rest := by
    have hdw : ∃ j, j ≤ (c :: t).length ∧
        ((c :: t ++ rest).dropWhile fun x => !delims.contains x) = (c :: t).drop j ++ rest := by
      have : ∀ u : List Byte, ∃ j, j ≤ u.length ∧ ((u ++ rest).dropWhile fun x => !delims.contains x) = u.drop j ++ rest := by
        intro u
        induction u with
        | nil =>
          refine ⟨0, Nat.le_refl _, ?_⟩
          cases rest with
          | nil => rfl
          | cons d r =>
            simp only [List.head?_cons, Option.some.injEq, reduceCtorEq, false_or] at hr
            subst hr
            rw [List.nil_append, List.dropWhile_cons, if_neg (by decide)]
            rfl
        | cons d u ih =>
          rw [List.cons_append, List.dropWhile_cons]
          by_cases hd : (!delims.contains d) = true
          · rw [if_pos hd]
            obtain ⟨j, hj, he⟩ := ih
            exact ⟨j + 1, by simp only [List.length_cons]; omega, by rw [he]; rfl⟩
          · rw [if_neg hd]
            exact ⟨0, Nat.zero_le _, rfl⟩
      exact this (c :: t)
    obtain ⟨j, hj, he⟩ := hdw
    unfold tokenEnd
    rw [if_neg hq]
    dsimp only
    rw [he]
    by_cases h0 : ((c :: t).drop j ++ rest).length = (c :: t ++ rest).length
    · rw [if_pos h0]
      exact ⟨1, Nat.le_refl _, by simp only [List.length_cons]; omega, rfl⟩
    · rw [if_neg h0]
      refine ⟨j, ?_, hj, rfl⟩
      rcases Nat.eq_zero_or_pos j with rfl | hp
      · exact absurd rfl h0
      · exact hp
  obtain ⟨k, hk1, hk, he⟩ := hcut
  refine ⟨k, hk1, hk, ?_⟩
  have hs' : skipBlanks ((c :: t).drop k ++ rest) = (c :: t).drop k ++ rest := skipBlanks_op (h.drop k) hr
  simp only [getToken, getTokenD]
  rw [hs, hend, if_neg (by simp), he, hs']
  have hl : (c :: t ++ rest).length - ((c :: t).drop k ++ rest).length = k := by
    simp only [List.length_append, List.length_drop, List.length_cons] at *
    omega
  rw [hl]
  have hat : (atEnd ((c :: t).drop k ++ rest) = true) ↔ ((c :: t).drop k ++ rest = []) := by
    rw [atEnd_iff]
    constructor
    · rintro (h1 | h1)
      · exact h1
      · exfalso
        cases hd : (c :: t).drop k with
        | nil =>
          rw [hd, List.nil_append] at h1
          rcases hr with rfl | hr
          · cases h1
          · rw [hr] at h1
            revert h1; decide
        | cons d u =>
          rw [hd] at h1
          have := (h.drop k) d (by rw [hd]; exact List.mem_cons_self ..)
          simp only [List.cons_append, List.head?_cons, Option.some.injEq] at h1
          exact this.2.2.2.1 h1
    · exact fun h1 => .inl h1
  by_cases h0 : (c :: t).drop k ++ rest = []
  · rw [if_pos h0, if_pos (hat.mpr h0)]
  · rw [if_neg h0, if_neg (fun hh => h0 (hat.mp hh))]

theorem addTokens_none (stop : List Byte) : addTokens stop none = (0, none) := by rw [addTokens]

theorem addTokens_some (stop a : List Byte) : addTokens stop (some a) =
    if kpstrcmpz (getToken (some a)).1 stop = 0 then (0, (getToken (some a)).2)
    else ((getToken (some a)).1.l + (addTokens stop (getToken (some a)).2).1, (addTokens stop (getToken (some a)).2).2) := by
  rw [addTokens]

/-- The pointer after a comma. -/
def afterComma (r : List Byte) : Option (List Byte) := if atEnd (skipBlanks r) then none else some (skipBlanks r)

theorem getToken_comma (r : List Byte) : getToken (some (44#8 :: r)) = (⟨44#8 :: r, 1⟩, afterComma r) := by
  have hs : skipBlanks (44#8 :: r) = 44#8 :: r := skipBlanks_cons (by decide) (by decide)
  have hend : atEnd (44#8 :: r) = false := by
    cases he : atEnd (44#8 :: r) with
    | false => rfl
    | true => rw [atEnd_iff] at he; simp at he
  have ht : tokenEnd delims (44#8 :: r) = r := by
    unfold tokenEnd
    have hd : ((44#8 :: r).dropWhile fun x => !delims.contains x) = 44#8 :: r := by
      rw [List.dropWhile_cons, if_neg (by decide)]
    rw [if_neg (by simp : ¬ (44#8 :: r).head? = some 34#8)]
    dsimp only
    rw [hd, if_pos rfl]
    rfl
  simp only [getToken, getTokenD]
  rw [hs, hend, if_neg (by simp), ht]
  have : (44#8 :: r).length - r.length = 1 := by simp
  rw [this]
  rfl

/-- A token of an operand is neither a comma nor a newline. -/
theorem op_token_ne {t rest : List Byte} {k : Nat} (h : OpText t) (hk1 : 1 ≤ k) (hk : k ≤ t.length) {c : Byte}
    (hc : c = 44#8 ∨ c = 10#8) : (Kpstr.mk (t ++ rest) k).text ≠ [c] := by
  intro he
  cases t with
  | nil => simp at hk; omega
  | cons d t =>
    have hd := h d (List.mem_cons_self ..)
    obtain ⟨k, rfl⟩ : ∃ j, k = j + 1 := ⟨k - 1, by omega⟩
    simp only [Kpstr.text, List.cons_append, List.take_succ_cons, List.cons.injEq] at he
    rcases hc with rfl | rfl
    · exact hd.2.2.1 he.1
    · exact hd.2.2.2.1 he.1

theorem addTokens_comma : ∀ (n : Nat) (t r : List Byte), t.length ≤ n → OpText t →
    addTokens (lit ",") (some (t ++ 44#8 :: r)) = (t.length, afterComma r) := by
  have hlit : lit "," = [44#8] := by decide +kernel
  intro n
  induction n with
  | zero =>
    intro t r hl _
    have : t = [] := List.length_eq_zero_iff.mp (by omega)
    subst this
    rw [List.nil_append, addTokens_some, if_pos ((tokIs_iff _ _).mpr (by rw [firstTok, getToken_comma, hlit]; rfl)), getToken_comma]
    rfl
  | succ n ih =>
    intro t r hl h
    by_cases hne : t = []
    · subst hne
      exact ih [] r (Nat.zero_le _) h
    · obtain ⟨k, hk1, hk, he⟩ := getToken_op (rest := 44#8 :: r) h hne (.inr rfl)
      have hne' : ¬ (t.drop k ++ 44#8 :: r = []) := by simp
      rw [if_neg hne'] at he
      have hn : ¬ kpstrcmpz (getToken (some (t ++ 44#8 :: r))).1 (lit ",") = 0 := by
        rw [tokIs_iff, firstTok, he, hlit]
        exact op_token_ne h hk1 hk (.inl rfl)
      rw [addTokens_some, if_neg hn, he]
      dsimp only
      rw [ih (t.drop k) r (by rw [List.length_drop]; omega) (h.drop k)]
      simp only [List.length_drop, Prod.mk.injEq, and_true]
      omega

theorem addTokens_end : ∀ (n : Nat) (t : List Byte), t.length ≤ n → OpText t →
    t ≠ [] → addTokens [10#8] (some t) = (t.length, none) := by
  intro n
  induction n with
  | zero =>
    intro t hl _ hne
    exact absurd (List.length_eq_zero_iff.mp (by omega)) hne
  | succ n ih =>
    intro t hl h hne
    obtain ⟨k, hk1, hk, he⟩ := getToken_op (rest := []) h hne (.inl rfl)
    simp only [List.append_nil] at he
    have hn : ¬ kpstrcmpz (getToken (some t)).1 [10#8] = 0 := by
      rw [tokIs_iff, firstTok, he]
      have := op_token_ne (rest := []) h hk1 hk (c := 10#8) (.inr rfl)
      rwa [List.append_nil] at this
    rw [addTokens_some, if_neg hn, he]
    dsimp only
    by_cases h0 : t.drop k = []
    · rw [if_pos h0, addTokens_none]
      have : t.length ≤ k := by rwa [List.drop_eq_nil_iff] at h0
      simp only [Prod.mk.injEq, and_true]
      omega
    · rw [if_neg h0, ih (t.drop k) (by rw [List.length_drop]; omega) (h.drop k) h0]
      simp only [List.length_drop, Prod.mk.injEq, and_true]
      omega

/-- The two operands as the program finds them. -/
theorem operands_found {A B : List Byte} (hA : OpText A) (hA0 : A ≠ []) (hB : OpText B) (hB0 : B ≠ []) :
    ∃ a s b s', getToken (some (A ++ lit ", " ++ B)) = (a, s) ∧ a.s = A ++ lit ", " ++ B ∧
      a.l + (addTokens (lit ",") s).1 = A.length ∧ (addTokens (lit ",") s).2 = some B ∧
      getToken (some B) = (b, s') ∧ b.s = B ∧ b.l + (addTokens [10#8] s').1 = B.length := by
  have hr : A ++ lit ", " ++ B = A ++ 44#8 :: (32#8 :: B) := by
    have : lit ", " = [44#8, 32#8] := by decide +kernel
    rw [this]; simp
  rw [hr]
  obtain ⟨k, hk1, hk, he⟩ := getToken_op (rest := 44#8 :: (32#8 :: B)) hA hA0 (.inr rfl)
  rw [if_neg (by simp)] at he
  obtain ⟨j, hj1, hj, hf⟩ := getToken_op (rest := []) hB hB0 (.inl rfl)
  simp only [List.append_nil] at hf
  refine ⟨_, _, _, _, he, rfl, ?_, ?_, hf, rfl, ?_⟩
  · rw [addTokens_comma _ _ _ (Nat.le_refl _) (hA.drop k), List.length_drop]
    dsimp only
    omega
  · rw [addTokens_comma _ _ _ (Nat.le_refl _) (hA.drop k)]
    dsimp only
    have hsk : skipBlanks (32#8 :: B) = B := by
      have := skipBlanks_op (rest := []) hB (.inl rfl)
      simp only [List.append_nil] at this
      simp only [skipBlanks] at this ⊢
      rw [List.dropWhile_cons, if_pos (by decide)]
      exact this
    unfold afterComma
    rw [hsk]
    have : ¬ atEnd B = true := by
      rw [atEnd_iff]
      rintro (h | h)
      · exact hB0 h
      · cases B with
        | nil => exact hB0 rfl
        | cons c B =>
          simp only [List.head?_cons, Option.some.injEq] at h
          exact (hB c (List.mem_cons_self ..)).2.2.2.1 h
    rw [if_neg this]
  · dsimp only
    by_cases h0 : B.drop j = []
    · rw [if_pos h0, addTokens_none]
      have : B.length ≤ j := by rwa [List.drop_eq_nil_iff] at h0
      dsimp only
      omega
    · rw [if_neg h0, addTokens_end _ _ (Nat.le_refl _) (hB.drop j) h0, List.length_drop]
      dsimp only
      omega

/-! ### The mnemonic -/

/-- Small letters. -/
def Letters (f : List Byte) : Prop := ∀ c ∈ f, 97 ≤ c.toNat ∧ c.toNat ≤ 122

theorem getToken_mov {f o : List Byte} (hf : Letters f) (ho : o ≠ []) (hb : skipBlanks o = o) (ha : atEnd o = false) :
    ∃ m, getToken (some (lit "\tmov" ++ f ++ lit "\t" ++ o)) = (m, some o) ∧ m.text = lit "mov" ++ f ∧
      m.l = 3 + f.length ∧ m.s = lit "mov" ++ f ++ lit "\t" ++ o ∧ m.s.drop 3 = f ++ lit "\t" ++ o := by
  have h1 : lit "\tmov" = [9#8, 109#8, 111#8, 118#8] := by decide +kernel
  have h2 : lit "mov" = [109#8, 111#8, 118#8] := by decide +kernel
  have h3 : lit "\t" = [9#8] := by decide +kernel
  have hs : skipBlanks (lit "\tmov" ++ f ++ lit "\t" ++ o) = lit "mov" ++ f ++ lit "\t" ++ o := by
    rw [h1, h2]
    simp only [skipBlanks, List.cons_append, List.nil_append, List.append_assoc]
    rw [List.dropWhile_cons, if_pos (by decide), List.dropWhile_cons, if_neg (by decide)]
  have hend : atEnd (lit "mov" ++ f ++ lit "\t" ++ o) = false := by
    rw [h2]
    cases he : atEnd ([109#8, 111#8, 118#8] ++ f ++ lit "\t" ++ o) with
    | false => rfl
    | true => rw [atEnd_iff] at he; simp at he
  have hdw : ((lit "mov" ++ f ++ lit "\t" ++ o).dropWhile fun x => !delims.contains x) = lit "\t" ++ o := by
    have hmf : ∀ c ∈ lit "mov" ++ f, (!delims.contains c) = true := by
      intro c hc
      rcases List.mem_append.mp hc with h | h
      · have : ∀ c ∈ lit "mov", (!delims.contains c) = true := by rw [h2]; decide
        exact this c h
      · have := hf c h
        have hh : ∀ d ∈ delims, c ≠ d := by
          intro d hd hcd
          subst hcd
          revert this
          revert c; unfold delims
          simp only [List.mem_cons, List.not_mem_nil, or_false]
          intro c _ _ hc
          rcases hc with h | h | h | h | h | h | h | h | h | h | h | h | h | h <;> subst h <;> decide
        rw [Bool.not_eq_true', ← Bool.not_eq_true, List.contains_iff_mem]
        exact fun hm => hh c hm rfl
    rw [List.append_assoc (lit "mov" ++ f), List.dropWhile_append_of_pos hmf, h3, List.cons_append,
      List.dropWhile_cons, if_neg (by decide)]
  have ht : tokenEnd delims (lit "mov" ++ f ++ lit "\t" ++ o) = lit "\t" ++ o := by
    unfold tokenEnd
    have hq : ¬ (lit "mov" ++ f ++ lit "\t" ++ o).head? = some 34#8 := by rw [h2]; simp
    have hl : ¬ (lit "\t" ++ o).length = (lit "mov" ++ f ++ lit "\t" ++ o).length := by
      rw [h2]
      simp only [List.length_append, List.length_cons]
      omega
    rw [if_neg hq]
    dsimp only
    rw [hdw, if_neg hl]
  have hsk : skipBlanks (lit "\t" ++ o) = o := by
    rw [h3]
    simp only [skipBlanks, List.cons_append, List.nil_append] at hb ⊢
    rw [List.dropWhile_cons, if_pos (by decide), hb]
  refine ⟨⟨lit "mov" ++ f ++ lit "\t" ++ o, 3 + f.length⟩, ?_, ?_, rfl, rfl, ?_⟩
  · simp only [getToken, getTokenD]
    rw [hs, hend, if_neg (by simp), ht, hsk, ha, if_neg (by simp)]
    have : (lit "mov" ++ f ++ lit "\t" ++ o).length - (lit "\t" ++ o).length = 3 + f.length := by
      rw [h2]
      simp only [List.length_append, List.length_cons, List.length_nil]
      omega
    rw [this]
  · simp only [Kpstr.text, List.append_assoc]
    rw [← List.append_assoc, List.take_left']
    rw [h2]
    simp only [List.length_append, List.length_cons, List.length_nil]
  · rw [h2]; rfl

end Verif

namespace Verif

/-! ### What the rewriting writes -/

theorem symbol_op {n : List Byte} (h : X86.IsSymbol n) : OpText n ∧ ∀ c ∈ n, c ≠ 64#8 ∧ c ≠ 43#8 ∧ c ≠ 36#8 ∧ c ≠ 37#8 ∧ c ≠ 40#8 ∧ lowerChar c ≠ 64#8 := by
  have key : ∀ c : Byte, (c = 95#8 ∨ c = 46#8 ∨ (48 ≤ c.toNat ∧ c.toNat ≤ 57) ∨ (65 ≤ c.toNat ∧ c.toNat ≤ 90) ∨
      (97 ≤ c.toNat ∧ c.toNat ≤ 122)) → (c ≠ 32#8 ∧ c ≠ 9#8 ∧ c ≠ 44#8 ∧ c ≠ 10#8 ∧ c ≠ 34#8) ∧
      (c ≠ 64#8 ∧ c ≠ 43#8 ∧ c ≠ 36#8 ∧ c ≠ 37#8 ∧ c ≠ 40#8 ∧ lowerChar c ≠ 64#8) := by
    decide +kernel
  exact ⟨fun c hc => (key c (h.2.1 c hc)).1, fun c hc => (key c (h.2.1 c hc)).2⟩

theorem hasSub_mid (a n b : List Byte) : hasSub (a ++ n ++ b) n = true := by
  induction a with
  | nil =>
    cases hb : n ++ b with
    | nil =>
      simp only [List.append_eq_nil_iff] at hb
      obtain ⟨rfl, rfl⟩ := hb
      rfl
    | cons c r =>
      rw [List.nil_append, hb, hasSub, ← hb, List.isPrefixOf_iff_prefix.mpr (List.prefix_append ..)]
      rfl
  | cons c a ih =>
    rw [List.cons_append, List.cons_append, hasSub, ih, Bool.or_true]

theorem rip_global {n : List Byte} (h : X86.IsSymbol n) (rest : List Byte) :
    isGlobalRip ⟨n ++ ripSuffix ++ rest, (n ++ ripSuffix).length⟩ = true ∧
    isGotpcrel ⟨n ++ ripSuffix ++ rest, (n ++ ripSuffix).length⟩ = false := by
  have hr : ripSuffix = [40#8, 37#8, 114#8, 105#8, 112#8, 41#8] := by decide +kernel
  have hlen : ripSuffix.length = 6 := by rw [hr]; rfl
  have hpos : 0 < n.length := List.length_pos_iff.mpr h.1
  constructor
  · unfold isGlobalRip endsWithCase
    have h1 : decide (ripSuffix.length < (n ++ ripSuffix).length) = true := by
      rw [decide_eq_true_iff, List.length_append]; omega
    have h2 : ((n ++ ripSuffix ++ rest).drop ((n ++ ripSuffix).length - ripSuffix.length)).take ripSuffix.length = ripSuffix := by
      rw [List.append_assoc, List.length_append, Nat.add_sub_cancel, List.drop_left, List.take_left]
    dsimp only
    rw [h1, h2]
    simp only [decide_true, Bool.true_and, Bool.or_eq_true, decide_eq_true_eq]
    have hpre := h.2.2
    have hlit : lit ".L" = [46#8, 76#8] := by decide +kernel
    rw [hlit] at hpre
    obtain ⟨c, n, rfl⟩ := List.exists_cons_of_ne_nil h.1
    by_cases h46 : c = 46#8
    · right
      subst h46
      cases n with
      | nil => rw [hr]; simp [Kpstr.at]
      | cons d n =>
        simp only [Kpstr.at, List.cons_append, List.getD_cons_succ, List.getD_cons_zero]
        intro hd
        subst hd
        exact hpre ⟨n, rfl⟩
    · left
      simpa [Kpstr.at] using h46
  · have key : ∀ suf : List Byte, suf.length = 15 → suf.map lowerChar ≠ [] → (suf.map lowerChar).head? = some 64#8 →
        endsWithCase ⟨n ++ ripSuffix ++ rest, (n ++ ripSuffix).length⟩ (suf.length + 1) suf = false := by
      intro suf hs _ hh
      rw [Bool.eq_false_iff]
      intro he
      unfold endsWithCase at he
      rw [Bool.and_eq_true, decide_eq_true_iff, decide_eq_true_iff] at he
      obtain ⟨hl, he⟩ := he
      dsimp only at hl he
      rw [hs] at hl he
      rw [List.length_append, hlen] at hl
      have hk : (n ++ ripSuffix).length - 15 < n.length := by rw [List.length_append, hlen]; omega
      have hhd : (((n ++ ripSuffix ++ rest).drop ((n ++ ripSuffix).length - 15)).take 15).head? =
          some (n[(n ++ ripSuffix).length - 15]'hk) := by
        rw [List.head?_take, if_neg (by decide), List.head?_drop, List.append_assoc, List.getElem?_append_left hk]
        exact List.getElem?_eq_getElem hk
      rw [← he, List.head?_map, hhd] at hh
      simp only [Option.map_some, Option.some.injEq] at hh
      exact ((symbol_op h).2 _ (List.getElem_mem hk)).2.2.2.2.2 hh
    unfold isGotpcrel
    rw [key gotpcrelSuffix (by decide +kernel) (by decide +kernel) (by decide +kernel),
      key gottpoffSuffix (by decide +kernel) (by decide +kernel) (by decide +kernel)]
    rfl

theorem op_append {a b : List Byte} (ha : OpText a) (hb : OpText b) : OpText (a ++ b) := by
  intro c hc
  rcases List.mem_append.mp hc with h | h
  · exact ha c h
  · exact hb c h

theorem op_not_end {t rest : List Byte} (h : OpText t) (hne : t ≠ []) : atEnd (t ++ rest) = false := by
  obtain ⟨c, t, rfl⟩ := List.exists_cons_of_ne_nil hne
  cases he : atEnd (c :: t ++ rest) with
  | false => rfl
  | true =>
    rw [atEnd_iff] at he
    simp only [List.cons_append, reduceCtorEq, List.head?_cons, Option.some.injEq, false_or] at he
    exact absurd he (h c (List.mem_cons_self ..)).2.2.2.1

/-- The common beginning: the parts of a move with a rip-relative operand. -/
theorem gotpcrel_parts {f A B : List Byte} (hf : Letters f) (hfl : f.length < 16) (hA : OpText A) (hA0 : A ≠ [])
    (hB : OpText B) (hB0 : B ≠ []) (hrip : hasSub (A ++ lit ", " ++ B) (lit "%rip") = true) :
    strDoGotpcrel (lit "\tmov" ++ f ++ lit "\t" ++ (A ++ lit ", " ++ B)) =
      (if isGlobalRip ⟨A ++ lit ", " ++ B, A.length⟩ then
        if isGotpcrel ⟨A ++ lit ", " ++ B, A.length⟩ then some (lit "\tmov" ++ f ++ lit "\t" ++ (A ++ lit ", " ++ B))
        else if hasSub B (lit "%xmm") then some (lit "\tmov" ++ f ++ lit "\t" ++ (A ++ lit ", " ++ B))
        else
          (getFullReg ⟨B, B.length⟩).map fun aux =>
            lit "\tmovq\t" ++ withoutRip ⟨A ++ lit ", " ++ B, A.length⟩ ++ gotpcrelSuffix ++ lit ", " ++ aux ++ lit "\n\tmov" ++ f ++
              lit "\t(" ++ aux ++ lit "), " ++ B
      else if isGlobalRip ⟨B, B.length⟩ then
        if isGotpcrel ⟨B, B.length⟩ then some (lit "\tmov" ++ f ++ lit "\t" ++ (A ++ lit ", " ++ B))
        else
          some (lit "\tpushq\t" ++ (if isRaxReference ⟨A ++ lit ", " ++ B, A.length⟩ then lit "%rbx" else lit "%rax") ++
            lit "\n\tmovq\t" ++ withoutRip ⟨B, B.length⟩ ++ gotpcrelSuffix ++ lit ", " ++
            (if isRaxReference ⟨A ++ lit ", " ++ B, A.length⟩ then lit "%rbx" else lit "%rax") ++
            lit "\n\tmov" ++ f ++ lit "\t" ++ A ++ lit ", (" ++
            (if isRaxReference ⟨A ++ lit ", " ++ B, A.length⟩ then lit "%rbx" else lit "%rax") ++ lit ")\n\tpopq\t" ++
            (if isRaxReference ⟨A ++ lit ", " ++ B, A.length⟩ then lit "%rbx" else lit "%rax"))
      else some (lit "\tmov" ++ f ++ lit "\t" ++ (A ++ lit ", " ++ B))) := by
  have ho : A ++ lit ", " ++ B ≠ [] := by simp [hA0]
  have hlit : lit ", " = [44#8, 32#8] := by decide +kernel
  have hsk : skipBlanks (A ++ lit ", " ++ B) = A ++ lit ", " ++ B := by
    rw [List.append_assoc]
    exact skipBlanks_op hA (.inr (by rw [hlit]; rfl))
  have hend : atEnd (A ++ lit ", " ++ B) = false := by
    rw [List.append_assoc]; exact op_not_end hA hA0
  obtain ⟨m, hm, hmt, hml, hms, hmd⟩ := getToken_mov hf ho hsk hend
  obtain ⟨a, s, b, s', ha, has, hal, has2, hb, hbs, hbl⟩ := operands_found hA hA0 hB hB0
  unfold strDoGotpcrel
  rw [hm]
  dsimp only
  have hmov : ¬ kpstrncmpz m (lit "mov") ≠ 0 := by
    have hok : m.Ok := by
      have := getToken_ok (some (lit "\tmov" ++ f ++ lit "\t" ++ (A ++ lit ", " ++ B)))
      rwa [hm] at this
    rw [Decidable.not_not, C41_prefix m hok, hmt]
    exact List.prefix_append ..
  rw [if_neg hmov, hrip, if_neg (by simp), if_neg (by omega), ha]
  dsimp only
  rw [show addTokens (lit ",") s = ((addTokens (lit ",") s).1, (addTokens (lit ",") s).2) from rfl, has2]
  dsimp only
  rw [hb]
  dsimp only
  rw [has, hal, hbs, hbl, hmd, hml]
  have hfl : (f ++ lit "\t" ++ (A ++ lit ", " ++ B)).take (3 + f.length - 3) = f := by
    rw [List.append_assoc, Nat.add_sub_cancel_left, List.take_left]
  rw [hfl]
  have hBt : (Kpstr.mk B B.length).text = B := List.take_length
  have hAt : (Kpstr.mk (A ++ lit ", " ++ B) A.length).text = A := by
    simp only [Kpstr.text, List.append_assoc, List.take_left]
  rw [hBt, hAt]

end Verif

namespace Verif.X86

/-! ### Reading the text of instructions -/

theorem lines_one {l : List Byte} (h : ∀ c ∈ l, c ≠ 10#8) : lines l = [l] := by
  induction l with
  | nil => rfl
  | cons c l ih =>
    have := ih fun d hd => h d (List.mem_cons_of_mem _ hd)
    unfold lines at this ⊢
    rw [List.foldr_cons, this, if_neg (h c (List.mem_cons_self ..))]

theorem lines_cons {l r : List Byte} (h : ∀ c ∈ l, c ≠ 10#8) : lines (l ++ 10#8 :: r) = l :: lines r := by
  induction l with
  | nil =>
    unfold lines
    rw [List.nil_append, List.foldr_cons, if_pos rfl]
  | cons c l ih =>
    have := ih fun d hd => h d (List.mem_cons_of_mem _ hd)
    unfold lines at this ⊢
    rw [List.cons_append, List.foldr_cons, this, if_neg (h c (List.mem_cons_self ..))]

theorem takeWhile_all {p : Byte → Bool} {a b : List Byte} (h : ∀ c ∈ a, p c = true) (hb : ∀ c ∈ b.head?, p c = false) :
    (a ++ b).takeWhile p = a ∧ (a ++ b).dropWhile p = b := by
  constructor
  · rw [List.takeWhile_append_of_pos h]
    cases b with
    | nil => simp
    | cons c b => rw [List.takeWhile_cons, if_neg (by simp [hb c rfl]), List.append_nil]
  · rw [List.dropWhile_append_of_pos h]
    cases b with
    | nil => rfl
    | cons c b => rw [List.dropWhile_cons, if_neg (by simp [hb c rfl])]

theorem gap_iff (c : Byte) : isGap c = true ↔ (c = 32#8 ∨ c = 9#8) := by simp [isGap]

/-- A line with a mnemonic of letters and operands. -/
theorem step_split {m o : List Byte} (hm : Letters m) (hm0 : m ≠ []) (ho : OpText (o.take 1)) (ho0 : o ≠ []) :
    (([9#8] ++ m ++ [9#8] ++ o).dropWhile isGap) = m ++ [9#8] ++ o ∧
    ((m ++ [9#8] ++ o).takeWhile fun c => !isGap c) = m ∧
    (((m ++ [9#8] ++ o).dropWhile fun c => !isGap c).dropWhile isGap) = o := by
  have hg : ∀ c ∈ m, (!isGap c) = true := by
    intro c hc
    have := hm c hc
    rw [Bool.not_eq_true', ← Bool.not_eq_true, gap_iff]
    rintro (rfl | rfl) <;> simp at this
  refine ⟨?_, ?_, ?_⟩
  · obtain ⟨c, m, rfl⟩ := List.exists_cons_of_ne_nil hm0
    have := hg c (List.mem_cons_self ..)
    simp only [List.cons_append, List.nil_append, List.append_assoc]
    rw [List.dropWhile_cons, if_pos (by decide), List.dropWhile_cons, if_neg (by simpa using this)]
  · rw [List.append_assoc]
    exact (takeWhile_all hg (by intro c hc; simp at hc; subst hc; decide)).1
  · rw [List.append_assoc, (takeWhile_all hg (by intro c hc; simp at hc; subst hc; decide)).2]
    obtain ⟨c, o, rfl⟩ := List.exists_cons_of_ne_nil ho0
    have hc := ho c (by simp)
    rw [List.cons_append, List.nil_append, List.dropWhile_cons, if_pos (by decide), List.dropWhile_cons, if_neg]
    rw [gap_iff]
    rintro (h | h)
    · exact hc.1 h
    · exact hc.2.1 h

theorem op_take {t rest : List Byte} (h : OpText t) (hne : t ≠ []) : OpText ((t ++ rest).take 1) := by
  obtain ⟨c, t, rfl⟩ := List.exists_cons_of_ne_nil hne
  intro d hd
  simp at hd
  subst hd
  exact h d (List.mem_cons_self ..)

theorem step_mov {f A B : List Byte} (hf : Letters f) (hA : OpText A) (hA0 : A ≠ []) (hB : OpText B) (hB0 : B ≠ [])
    (L : Link) (s : State) : step L (lit "\tmov" ++ f ++ lit "\t" ++ (A ++ lit ", " ++ B)) s =
      (operand A).bind fun src => (operand B).bind fun dst => mov L f src dst s := by
  have h1 : lit "\tmov" = [9#8] ++ lit "mov" := by decide +kernel
  have h2 : lit "\t" = [9#8] := by decide +kernel
  have h3 : lit ", " = [44#8, 32#8] := by decide +kernel
  have h4 : lit "mov" = [109#8, 111#8, 118#8] := by decide +kernel
  have hlm : Letters (lit "mov") := by rw [h4]; unfold Letters; decide
  have hm : Letters (lit "mov" ++ f) := by
    intro c hc
    rcases List.mem_append.mp hc with h | h
    · exact hlm c h
    · exact hf c h
  have hm0 : lit "mov" ++ f ≠ [] := by rw [h4]; simp
  have ho : OpText ((A ++ lit ", " ++ B).take 1) := by rw [List.append_assoc]; exact op_take hA hA0
  have ho0 : A ++ lit ", " ++ B ≠ [] := by simp [hA0]
  obtain ⟨e1, e2, e3⟩ := step_split hm hm0 ho ho0
  have hcomma : ∀ c ∈ A, decide (c ≠ 44#8) = true := fun c hc => decide_eq_true (hA c hc).2.2.1
  obtain ⟨t1, t2⟩ := takeWhile_all (p := fun c => decide (c ≠ 44#8)) (b := lit ", " ++ B) hcomma (by
    rw [h3]; intro c hc; simp at hc; subst hc; decide)
  unfold step
  rw [h1, h2, List.append_assoc [9#8] (lit "mov") f, e1]
  dsimp only
  rw [e2, e3, List.append_assoc A, t1, t2]
  have hpush : ¬ lit "mov" ++ f = lit "pushq" := by
    rw [h4, show lit "pushq" = [112#8, 117#8, 115#8, 104#8, 113#8] from by decide +kernel]; simp
  have hpop : ¬ lit "mov" ++ f = lit "popq" := by
    rw [h4, show lit "popq" = [112#8, 111#8, 112#8, 113#8] from by decide +kernel]; simp
  have ht : (lit "mov" ++ f).take 3 = lit "mov" := by rw [h4]; rfl
  have hd : (lit "mov" ++ f).drop 3 = f := by rw [h4]; rfl
  have hbB : ((lit ", " ++ B).drop 1).dropWhile isGap = B := by
    obtain ⟨c, B, rfl⟩ := List.exists_cons_of_ne_nil hB0
    have hc := hB c (List.mem_cons_self ..)
    rw [h3]
    simp only [List.cons_append, List.nil_append, List.drop_succ_cons, List.drop_zero]
    rw [List.dropWhile_cons, if_pos (by decide), List.dropWhile_cons, if_neg]
    rw [gap_iff]
    rintro (h | h)
    · exact hc.1 h
    · exact hc.2.1 h
  rw [if_neg hpush, if_neg hpop, if_pos ht, hd, hbB]

theorem step_stack {A : List Byte} (hA : OpText A) (hA0 : A ≠ []) (L : Link) (s : State) :
    step L (lit "\tpushq\t" ++ A) s = (operand A).bind (push · s) ∧
    step L (lit "\tpopq\t" ++ A) s = (operand A).bind (pop · s) := by
  have hp : lit "\tpushq\t" = [9#8] ++ lit "pushq" ++ [9#8] := by decide +kernel
  have hq : lit "\tpopq\t" = [9#8] ++ lit "popq" ++ [9#8] := by decide +kernel
  have hpl : Letters (lit "pushq") := by unfold Letters; decide +kernel
  have hql : Letters (lit "popq") := by unfold Letters; decide +kernel
  have ho : OpText (A.take 1) := by
    have := op_take (rest := []) hA hA0
    rwa [List.append_nil] at this
  constructor
  · obtain ⟨e1, e2, e3⟩ := step_split hpl (by decide +kernel) ho hA0
    unfold step
    rw [hp, e1]
    dsimp only
    rw [e2, e3, if_pos rfl]
  · obtain ⟨e1, e2, e3⟩ := step_split hql (by decide +kernel) ho hA0
    unfold step
    rw [hq, e1]
    dsimp only
    rw [e2, e3, if_neg (by decide +kernel), if_pos rfl]

/-! ### Operands -/

theorem before_append (suf t : List Byte) : before suf (t ++ suf) = some t := by
  unfold before
  rw [if_pos (List.isSuffixOf_iff_suffix.mpr (List.suffix_append ..)), List.length_append, Nat.add_sub_cancel, List.take_left]

theorem nameOff_symbol {n : List Byte} (h : IsSymbol n) : nameOff n = some (n, 0) := by
  have : n.takeWhile (fun c => decide (c ≠ 43#8)) = n := by
    have := (takeWhile_all (p := fun c => decide (c ≠ 43#8)) (a := n) (b := [])
      (fun c hc => decide_eq_true ((symbol_op h).2 c hc).2.1) (by simp)).1
    rwa [List.append_nil] at this
  unfold nameOff
  dsimp only
  rw [this, if_neg fun hc => ((symbol_op h).2 _ hc).1 rfl]
  simp

theorem operand_other {c : Byte} {t : List Byte} (h1 : c ≠ 36#8) (h2 : c ≠ 37#8) (h3 : c ≠ 40#8) :
    operand (c :: t) = (before (lit "(%rip)") (c :: t)).bind fun e =>
      match before (lit "@GOTPCREL") e with
      | some g => (nameOff g).map fun (n, o) => .got n o
      | none => (nameOff e).map fun (n, o) => .sym n o := by
  unfold operand
  split
  · rename_i h; simp at h; exact absurd h.1 h1
  · rename_i h; simp at h; exact absurd h.1 h2
  · rename_i h; simp at h; exact absurd h.1 h3
  · rfl

theorem operand_sym {n : List Byte} (h : IsSymbol n) : operand (n ++ lit "(%rip)") = some (.sym n 0) := by
  have hc := fun c hc => (symbol_op h).2 c hc
  have hno : before (lit "@GOTPCREL") n = none := by
    unfold before
    rw [if_neg]
    intro hs
    have hs := List.isSuffixOf_iff_suffix.mp hs
    have : 64#8 ∈ lit "@GOTPCREL" := by decide +kernel
    exact (hc _ (hs.subset this)).1 rfl
  have hne := h.1
  obtain ⟨c, n', hn⟩ := List.exists_cons_of_ne_nil hne
  have hcc := hc c (by rw [hn]; exact List.mem_cons_self ..)
  have := operand_other (t := n' ++ lit "(%rip)") hcc.2.2.1 hcc.2.2.2.1 hcc.2.2.2.2.1
  rw [← List.cons_append, ← hn, before_append] at this
  rw [this]
  simp only [Option.bind_some]
  rw [hno, nameOff_symbol h]
  rfl

theorem operand_got {n : List Byte} (h : IsSymbol n) : operand (n ++ gotpcrelSuffix) = some (.got n 0) := by
  have hc := fun c hc => (symbol_op h).2 c hc
  have hg : gotpcrelSuffix = lit "@GOTPCREL" ++ lit "(%rip)" := by decide +kernel
  obtain ⟨c, n', hn⟩ := List.exists_cons_of_ne_nil h.1
  have hcc := hc c (by rw [hn]; exact List.mem_cons_self ..)
  have := operand_other (t := n' ++ (lit "@GOTPCREL" ++ lit "(%rip)")) hcc.2.2.1 hcc.2.2.2.1 hcc.2.2.2.2.1
  rw [← List.cons_append, ← hn, ← List.append_assoc, before_append] at this
  rw [hg, ← List.append_assoc, this]
  simp only [Option.bind_some]
  rw [before_append]
  dsimp only
  rw [nameOff_symbol h]
  rfl

/-! ### Registers -/

instance (t : List Byte) : Decidable (OpText t) := by unfold OpText; infer_instance

instance (t : List Byte) : Decidable (Letters t) := by unfold Letters; infer_instance

theorem flavors_letters : ∀ f ∈ flavors, Letters f ∧ f.length < 16 := by decide +kernel

set_option maxRecDepth 100000 in
theorem reg_load : ∀ r ∈ names64 ++ names32, OpText r ∧ r ≠ [] ∧ hasSub r (lit "%xmm") = false ∧ ∃ i, i < 16 ∧ ∃ z ∈ [4, 8],
    getFullReg ⟨r, r.length⟩ = some (names64.getD i []) ∧ operand r = some (.reg ⟨i, 0, z⟩) := by decide +kernel

set_option maxRecDepth 100000 in
theorem reg_full : ∀ i, i < 16 → OpText (names64.getD i []) ∧ names64.getD i [] ≠ [] ∧
    operand (names64.getD i []) = some (.reg ⟨i, 0, 8⟩) ∧
    operand (lit "(" ++ names64.getD i [] ++ lit ")") = some (.ind i) := by decide +kernel

set_option maxRecDepth 100000 in
theorem reg_store : ∀ r ∈ names64 ++ names32 ++ names16 ++ names8 ++ namesHigh, OpText r ∧ r ≠ [] ∧ r.length < 6 ∧
    ∃ i, i < 16 ∧ ∃ k ∈ [0, 8], ∃ z ∈ [1, 2, 4, 8],
    operand r = some (.reg ⟨i, k, z⟩) ∧ (isRaxReference ⟨r, r.length⟩ = true ↔ i = 0) := by decide +kernel

/-! ### Memory -/

theorem load_congr {m m' : BitVec 64 → Byte} {a : BitVec 64} {n : Nat} (h : ∀ x, In x a n → m x = m' x) :
    load m a n = load m' a n := by
  induction n generalizing a with
  | zero => rfl
  | succ n ih =>
    have h0 : m a = m' a := h a (by simp [In])
    have := ih (a := a + 1) fun x hx => h x (by
      unfold In at hx ⊢
      have e : x - a = (x - (a + 1)) + 1 := by grind
      rw [e, BitVec.toNat_add]
      have : (1#64).toNat = 1 := rfl
      have := Nat.mod_le ((x - (a + 1)).toNat + (1#64).toNat) (2 ^ 64)
      change ((x - (a + 1)).toNat + (1#64).toNat) % 2 ^ 64 < n + 1
      omega)
    simp only [load, h0, this]

theorem load_bytes {m : BitVec 64 → Byte} {a : BitVec 64} {n V : Nat}
    (h : ∀ i < n, (m (a + BitVec.ofNat 64 i)).toNat = V / 256 ^ i % 256) : load m a n = V % 256 ^ n := by
  induction n generalizing a V with
  | zero => simp [load, Nat.mod_one]
  | succ n ih =>
    have h0 := h 0 (by omega)
    simp only [Nat.pow_zero, Nat.div_one] at h0
    rw [show a + BitVec.ofNat 64 0 = a from by simp] at h0
    have := ih (a := a + 1) (V := V / 256) fun i hi => by
      have := h (i + 1) (by omega)
      rw [Nat.div_div_eq_div_mul, ← Nat.pow_succ', ← this]
      congr 2
      rw [BitVec.ofNat_add]
      grind
    simp only [load]
    rw [h0, this, Nat.pow_succ', Nat.mod_mul]

theorem load_store (m : BitVec 64 → Byte) (a v : BitVec 64) : load (store m a 8 v) a 8 = v.toNat := by
  have : load (store m a 8 v) a 8 = v.toNat % 256 ^ 8 := load_bytes fun i hi => by
    unfold store
    have e : (a + BitVec.ofNat 64 i - a).toNat = i := by
      rw [show a + BitVec.ofNat 64 i - a = BitVec.ofNat 64 i from by grind, BitVec.toNat_ofNat]
      omega
    rw [e, if_pos hi, BitVec.toNat_setWidth, BitVec.toNat_ushiftRight, Nat.shiftRight_eq_div_pow, Nat.pow_mul]
  rw [this]
  have := v.isLt
  omega

theorem store_other {m : BitVec 64 → Byte} {a x v : BitVec 64} {n : Nat} (h : ¬ In x a n) : store m a n v x = m x := by
  unfold In at h
  unfold store
  rw [if_neg h]

theorem store_same {m m' : BitVec 64 → Byte} {a x v : BitVec 64} {n : Nat} (h : In x a n) : store m a n v x = store m' a n v x := by
  unfold In at h
  unfold store
  rw [if_pos h, if_pos h]

end Verif.X86
