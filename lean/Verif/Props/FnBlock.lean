import Verif.Props.Cblock
/-
C64: the extent of the blocks of functions.
-/
namespace Verif

section Target

variable [AsmTarget]

theorem subIndex_none (n : List Byte) : ∀ s : List Byte, subIndex s n = none → hasSub s n = false := by
  intro s
  induction s with
  | nil => intro h; simp only [subIndex] at h; split at h <;> simp_all [hasSub]
  | cons c s ih =>
    intro h
    simp only [subIndex] at h
    split at h
    · cases h
    · rename_i hp
      rw [Option.map_eq_none_iff] at h
      simp only [hasSub, ih h, Bool.or_false]
      rw [Bool.eq_false_iff]
      exact hp

theorem subIndex_some (n : List Byte) (hn : n ≠ []) : ∀ (s : List Byte) (i : Nat), subIndex s n = some i →
    n <+: s.drop i ∧ i < s.length ∧ ∀ j < i, ¬ n <+: s.drop j := by
  intro s
  induction s with
  | nil => intro i h; simp [subIndex, hn] at h
  | cons c s ih =>
    intro i h
    simp only [subIndex] at h
    split at h
    · rename_i hp
      cases h
      exact ⟨by simpa using hp, by simp, by simp⟩
    · rename_i hp
      rw [Option.map_eq_some_iff] at h
      obtain ⟨i', h1, rfl⟩ := h
      obtain ⟨h2, h3, h4⟩ := ih _ h1
      refine ⟨by simpa using h2, by simpa using h3, fun j hj => ?_⟩
      cases j with
      | zero => simpa using hp
      | succ j => simpa using h4 j (by omega)

theorem hasSub_iff (n : List Byte) (hn : n ≠ []) : ∀ s : List Byte, hasSub s n = true ↔ ∃ j, n <+: s.drop j := by
  intro s
  induction s with
  | nil =>
    simp only [hasSub, beq_iff_eq, List.drop_nil, List.prefix_nil]
    constructor
    · intro h; exact absurd h hn
    · rintro ⟨_, h⟩; exact absurd h hn
  | cons c s ih =>
    simp only [hasSub, Bool.or_eq_true, List.isPrefixOf_iff_prefix, ih]
    constructor
    · rintro (h | ⟨j, h⟩)
      · exact ⟨0, by simpa using h⟩
      · exact ⟨j + 1, by simpa using h⟩
    · rintro ⟨j, h⟩
      cases j with
      | zero => exact Or.inl (by simpa using h)
      | succ j => exact Or.inr ⟨j, by simpa using h⟩

theorem lit_cold : lit ".cold" = [46#8, 99#8, 111#8, 108#8, 100#8] := by decide +kernel

/-- Two occurrences of `.cold` do not overlap. -/
theorem cold_apart {s : List Byte} {i j : Nat} (hi : lit ".cold" <+: s.drop i) (hj : lit ".cold" <+: s.drop j)
    (hlt : j < i) : j + 5 ≤ i := by
  rw [lit_cold] at hi hj
  obtain ⟨r, hr⟩ := hi
  obtain ⟨q, hq⟩ := hj
  have h0 : s[i]? = some 46#8 := by
    have := congrArg (·[0]?) hr
    simpa [List.getElem?_drop] using this.symm
  have hk : ∀ k, k < 5 → s[j + k]? = [46#8, 99#8, 111#8, 108#8, 100#8][k]? := by
    intro k hk
    have := congrArg (·[k]?) hq
    rw [List.getElem?_drop] at this
    rw [← this, List.getElem?_append_left (by simpa using hk)]
  by_contra hc
  have : i = j + 1 ∨ i = j + 2 ∨ i = j + 3 ∨ i = j + 4 := by omega
  rcases this with rfl | rfl | rfl | rfl
  · rw [hk 1 (by omega)] at h0; simp at h0
  · rw [hk 2 (by omega)] at h0; simp at h0
  · rw [hk 3 (by omega)] at h0; simp at h0
  · rw [hk 4 (by omega)] at h0; simp at h0

theorem removeCold_ok {x : Kpstr} (hx : x.Ok) : (removeCold x).Ok := by
  unfold removeCold
  split
  · rename_i i h
    have := (subIndex_some _ (by rw [lit_cold]; simp) _ _ h).2.1
    exact Nat.le_of_lt this
  · exact hx

theorem namesFn_iff (nm x : Kpstr) (hn : nm.Ok) (hx : x.Ok) :
    (kpstrcmp nm (if x.l > nm.l then removeCold x else x) = 0 ↔
      (x.text = nm.text ∨ (nm.text.length < x.l ∧ hasSub nm.text (lit ".cold") = false ∧
        (nm.text ++ lit ".cold") <+: x.s))) := by
  have hc : lit ".cold" ≠ [] := by rw [lit_cold]; simp
  have hlen : nm.text.length = nm.l := by
    unfold Kpstr.text; rw [List.length_take]; have : nm.l ≤ nm.s.length := hn; omega
  have hxlen : x.text.length = x.l := by
    unfold Kpstr.text; rw [List.length_take]; have : x.l ≤ x.s.length := hx; omega
  rw [hlen]
  split
  · rename_i hl
    rw [kpstrcmp_zero hn (removeCold_ok hx)]
    have hne : x.text ≠ nm.text := by
      intro e; have := congrArg List.length e; omega
    simp only [hne, false_or]
    unfold removeCold
    split
    · rename_i i hi
      obtain ⟨h1, h2, h3⟩ := subIndex_some _ hc _ _ hi
      constructor
      · intro e
        have hi' : i = nm.l := by
          have := congrArg List.length e
          rw [hlen] at this
          simp only [Kpstr.text, List.length_take] at this
          omega
        subst hi'
        change nm.text = x.s.take nm.l at e
        refine ⟨hl, ?_, ?_⟩
        · rw [Bool.eq_false_iff]
          intro hs
          obtain ⟨j, hj⟩ := (hasSub_iff _ hc _).mp hs
          have hjl : j < nm.l := by
            have h5 := hj.length_le
            rw [List.length_drop, hlen, lit_cold] at h5
            simp at h5
            omega
          apply h3 j hjl
          rw [e, List.drop_take] at hj
          exact hj.trans (List.take_prefix _ _)
        · rw [e]
          obtain ⟨r, hr⟩ := h1
          refine ⟨r, ?_⟩
          rw [List.append_assoc, hr, List.take_append_drop]
      · rintro ⟨-, hs, hp⟩
        have hat : lit ".cold" <+: x.s.drop nm.l := by
          obtain ⟨r, hr⟩ := hp
          rw [← hr, List.append_assoc, List.drop_left' hlen]
          exact ⟨r, rfl⟩
        have hpre : x.s.take nm.l = nm.text := by
          obtain ⟨r, hr⟩ := hp
          rw [← hr, List.append_assoc, List.take_left' hlen]
        have : i = nm.l := by
          rcases Nat.lt_trichotomy i nm.l with h | h | h
          · exfalso
            have h5 := cold_apart hat h1 h
            rw [Bool.eq_false_iff] at hs
            apply hs
            rw [hasSub_iff _ hc]
            refine ⟨i, ?_⟩
            rw [← hpre, List.drop_take]
            rw [List.prefix_take_iff]
            refine ⟨h1, ?_⟩
            rw [lit_cold]
            simp
            omega
          · exact h
          · exact absurd hat (h3 _ h)
        rw [this]
        exact hpre.symm
    · rename_i hnone
      constructor
      · intro e; exact absurd e.symm hne
      · rintro ⟨-, -, hp⟩
        have := subIndex_none _ _ hnone
        rw [Bool.eq_false_iff] at this
        exfalso
        apply this
        rw [hasSub_iff _ hc]
        obtain ⟨r, hr⟩ := hp
        refine ⟨nm.l, ?_⟩
        rw [← hr, List.append_assoc, List.drop_left' hlen]
        exact ⟨r, rfl⟩
  · rename_i hl
    rw [kpstrcmp_zero hn hx]
    constructor
    · intro e; exact Or.inl e.symm
    · rintro (e | ⟨h, -⟩)
      · exact e.symm
      · omega

theorem kpstrcmp_comm_zero {a b : Kpstr} (ha : a.Ok) (hb : b.Ok) : kpstrcmp a b = 0 ↔ kpstrcmp b a = 0 := by
  rw [kpstrcmp_zero ha hb, kpstrcmp_zero hb ha, eq_comm]

theorem namesFn_eq (nm : Kpstr) (hn : nm.Ok) (line : List Byte) :
    namesFn nm.text line = decide (kpstrcmp nm (if (symArg line).l > nm.l then removeCold (symArg line) else symArg line) = 0) := by
  rw [Bool.eq_iff_iff, decide_eq_true_iff, namesFn_iff nm _ hn (symArg_ok line)]
  unfold namesFn symArg
  dsimp only
  rw [Bool.or_eq_true, Bool.and_eq_true, Bool.and_eq_true, decide_eq_true_iff, decide_eq_true_iff, List.isPrefixOf_iff_prefix,
    Bool.not_eq_true', and_assoc]

theorem dir_tok (l : List Byte) : (parseCtype l = .type ↔ firstTok l = lit ".type") ∧
    (parseCtype l = .size ↔ firstTok l = lit ".size") ∧ (parseCtype l = .kpflags ↔ firstTok l = lit ".kpgensrc_flags") := by
  have hw : ∀ d ∈ asmDirectives, (d.2 = lit ".type" ↔ d.1 = .type) ∧ (d.2 = lit ".size" ↔ d.1 = .size) ∧
      (d.2 = lit ".kpgensrc_flags" ↔ d.1 = .kpflags) := by decide +kernel
  rcases parseCtype_eq l with ⟨d, hd, h1, h2⟩ | ⟨h1, h2⟩
  · obtain ⟨a, b, c⟩ := hw d hd
    rw [h2, ← h1]
    exact ⟨a.symm, b.symm, c.symm⟩
  · have hin : ∀ w ∈ [lit ".type", lit ".size", lit ".kpgensrc_flags"], ∃ d ∈ asmDirectives, d.2 = w := by decide +kernel
    have hno : ∀ w ∈ [lit ".type", lit ".size", lit ".kpgensrc_flags"], firstTok l ≠ w := by
      intro w hw e
      obtain ⟨d, hd, e2⟩ := hin w hw
      exact h1 d hd (by rw [e2, e])
    have a := hno (lit ".type") (by simp)
    have b := hno (lit ".size") (by simp)
    have c := hno (lit ".kpgensrc_flags") (by simp)
    simp only [List.mem_cons, List.not_mem_nil, or_false] at h2
    rcases h2 with h | h | h | h <;> rw [h] <;> simp [a, b, c]

theorem fnAttr_eq : fnAttr = functionAttr := by
  unfold fnAttr functionAttr
  cases AsmTarget.isa <;> rfl

theorem recogFuncAttr_eq (nm : Kpstr) (hn : nm.Ok) (l : Ln) (hd : l.dir = parseCtype l.text) (b : Bool)
    (hcold : AsmTarget.isa = .aarch64 → declaresFn nm.text l.text = true → secondTok l.text = nm.text)
    (h : recogFuncAttr nm l = some b) : b = declaresFn nm.text l.text := by
  unfold recogFuncAttr at h
  rw [fnAttr_eq] at h
  unfold declaresFn at hcold ⊢
  split at h
  · rename_i ht
    rw [hd, (dir_tok _).1] at ht
    unfold typeArgs at h
    dsimp only at h
    rw [if_neg (by rw [Decidable.not_not, tokIs_iff]; exact ht)] at h
    rw [decide_eq_true ht, Bool.true_and]
    by_cases hc : thirdTok l.text = lit ","
    · have hc' : kpstrcmpz (getToken (getToken (getToken (some l.text)).2).2).1 (lit ",") = 0 := by
        unfold kpstrcmpz
        rw [kpstrcmp_zero (getToken_ok _) (kpz_ok _), kpz_text]; exact hc
      rw [if_neg (by rw [Decidable.not_not]; exact hc')] at h
      rw [decide_eq_true hc, Bool.true_and]
      dsimp only at h
      have hat : kpstrcmpz (getToken (getToken (getToken (getToken (some l.text)).2).2).2).1 functionAttr = 0 ↔
          fourthTok l.text = functionAttr := by
        unfold kpstrcmpz fourthTok
        rw [kpstrcmp_zero (getToken_ok _) (kpz_ok _), kpz_text]
      split at h
      · rename_i h4
        rw [hat] at h4
        rw [decide_eq_true h4, Bool.true_and]
        simp only [Option.some.injEq] at h
        by_cases ha : AsmTarget.isa = .aarch64
        · rw [if_neg (by simp [ha])] at h
          rw [ht, hc, h4, decide_eq_true rfl, decide_eq_true rfl, decide_eq_true rfl, Bool.and_self, Bool.true_and,
            Bool.true_and] at hcold
          have hcold := hcold ha
          rw [← h, Bool.eq_iff_iff, decide_eq_true_iff, kpstrcmp_zero (getToken_ok _) hn]
          exact ⟨fun e => by unfold namesFn; simp [e], hcold⟩
        rw [namesFn_eq nm hn, ← h]
        simp only [ne_eq, ha, not_false_eq_true, true_and]
        refine decide_eq_decide.mpr ?_
        rw [kpstrcmp_comm_zero _ hn]
        · rfl
        · split
          · exact removeCold_ok (getToken_ok _)
          · exact getToken_ok _
      · rename_i h4
        rw [hat] at h4
        cases h
        rw [decide_eq_false h4, Bool.false_and]
    · rw [if_pos (by
        unfold kpstrcmpz
        rw [Ne, kpstrcmp_zero (getToken_ok _) (kpz_ok _), kpz_text]; exact hc)] at h
      cases h
  · rename_i ht
    rw [hd, (dir_tok _).1] at ht
    cases h
    rw [decide_eq_false ht]
    rfl

theorem isFunctionEnd_eq (nm : Kpstr) (hn : nm.Ok) (l : Ln) (hd : l.dir = parseCtype l.text) :
    isFunctionEnd nm l = sizesFn nm.text l.text := by
  unfold isFunctionEnd sizesFn
  split
  · rename_i ht
    rw [hd, Ne, (dir_tok _).2.1] at ht
    rw [decide_eq_false ht, Bool.false_and]
  · rename_i ht
    rw [Decidable.not_not, hd, (dir_tok _).2.1] at ht
    rw [decide_eq_true ht, Bool.true_and, namesFn_eq nm hn]

/-- `completeAt` with a count of declarations before. -/
def completeFrom (c : Int) (n : List Byte) (ls : List (List Byte)) (k : Nat) : Prop :=
  ∃ l, ls[k]? = some l ∧ sizesFn n l = true ∧
    c + ((ls.take (k + 1)).countP (declaresFn n) : Int) = ((ls.take (k + 1)).countP (sizesFn n) : Int)

theorem completeAt_iff (n : List Byte) (ls : List (List Byte)) (k : Nat) :
    completeAt n ls k ↔ ls[k]?.any (sizesFn n) = true ∧
      (ls.take (k + 1)).countP (declaresFn n) = (ls.take (k + 1)).countP (sizesFn n) := by
  unfold completeAt
  cases ls[k]? <;> simp

theorem completeFrom_zero (n : List Byte) (ls : List (List Byte)) (k : Nat) :
    completeFrom 0 n ls k ↔ completeAt n ls k := by
  unfold completeFrom completeAt
  simp only [Int.zero_add, Int.natCast_inj]

theorem completeFrom_cons (c : Int) (n l : List Byte) (ls : List (List Byte)) (k : Nat) :
    completeFrom c n (l :: ls) (k + 1) ↔
      completeFrom (c + (if declaresFn n l then 1 else 0) - (if sizesFn n l then 1 else 0)) n ls k := by
  unfold completeFrom
  simp only [List.getElem?_cons_succ, List.take_succ_cons, List.countP_cons]
  constructor <;> rintro ⟨x, h1, h2, h3⟩ <;> refine ⟨x, h1, h2, ?_⟩ <;>
    (by_cases hd : declaresFn n l = true <;> by_cases hs : sizesFn n l = true <;>
      simp only [hd, hs, if_true, if_false, Bool.false_eq_true] at h3 ⊢ <;> omega)

theorem completeFrom_first (c : Int) (n l : List Byte) (ls : List (List Byte)) :
    completeFrom c n (l :: ls) 0 ↔ sizesFn n l = true ∧ c + (if declaresFn n l then 1 else 0) = 1 := by
  unfold completeFrom
  simp only [List.getElem?_cons_zero, List.take_succ_cons, List.take_zero, List.countP_cons, List.countP_nil,
    Option.some.injEq]
  constructor
  · rintro ⟨x, rfl, h2, h3⟩
    rw [h2] at h3
    refine ⟨h2, ?_⟩
    by_cases hd : declaresFn n l = true <;> simp only [hd, if_true, if_false, Bool.false_eq_true] at h3 ⊢ <;> omega
  · rintro ⟨h2, h3⟩
    refine ⟨l, rfl, h2, ?_⟩
    rw [h2]
    by_cases hd : declaresFn n l = true <;> simp only [hd, if_true, if_false, Bool.false_eq_true] at h3 ⊢ <;> omega

theorem funcScan_spec (nm : Kpstr) (hn : nm.Ok) : ∀ (ls : List Ln) (c : Int) (r : FuncScan), ls ≠ [] →
    (∀ l ∈ ls, l.dir = parseCtype l.text) →
    (∀ l ∈ ls, AsmTarget.isa = .aarch64 → declaresFn nm.text l.text = true → secondTok l.text = nm.text) →
    funcScan nm c ls = some r →
    (r.closed = true ∧ 0 < r.seen.length ∧ r.seen.length < ls.length ∧
      completeFrom c nm.text (ls.map (·.text)) (r.seen.length - 1) ∧
      ∀ k < r.seen.length - 1, ¬ completeFrom c nm.text (ls.map (·.text)) k) ∨
    (r.closed = false ∧ r.seen.length + 1 = ls.length ∧
      ∀ k, k + 1 < ls.length → ¬ completeFrom c nm.text (ls.map (·.text)) k) := by
  intro ls
  induction ls with
  | nil => intro _ _ h; exact absurd rfl h
  | cons l ls ih =>
    intro c r _ hdir hcold h
    cases ls with
    | nil =>
      simp only [funcScan, Option.some.injEq] at h
      subst h
      exact Or.inr ⟨rfl, rfl, fun k hk => by simp at hk⟩
    | cons l2 rest =>
      rw [funcScan] at h
      dsimp only at h
      have hd := hdir l (by simp)
      have hrec : ∀ b, recogFuncAttr nm (if l.dir = .kpflags then ({ l with text := [] } : Ln) else l) = some b →
          b = declaresFn nm.text l.text := by
        intro b hb
        split at hb
        · rename_i hk
          have : recogFuncAttr nm ({ l with text := [] } : Ln) = some false := by
            unfold recogFuncAttr; simp [hk]
          rw [this] at hb
          cases hb
          unfold declaresFn
          rw [hd, (dir_tok _).2.2] at hk
          rw [hk, decide_eq_false (by decide +kernel)]
          rfl
        · exact recogFuncAttr_eq nm hn l hd b (hcold l (by simp)) hb
      have hfe : isFunctionEnd nm (if l.dir = .kpflags then ({ l with text := [] } : Ln) else l) =
          sizesFn nm.text l.text := by
        split
        · rename_i hk
          have : isFunctionEnd nm ({ l with text := [] } : Ln) = false := by
            unfold isFunctionEnd; simp [hk]
          rw [this]
          unfold sizesFn
          rw [hd, (dir_tok _).2.2] at hk
          rw [hk, decide_eq_false (by decide +kernel)]
          rfl
        · exact isFunctionEnd_eq nm hn l hd
      rw [hfe] at h
      generalize (if l.dir = .kpflags then ({ l with text := [] } : Ln) else l) = l' at h hrec
      split at h
      · cases h
      · rename_i b hb
        rw [hrec b hb] at h
        have hcnt : (if declaresFn nm.text l.text = true then c + 1 else c) =
            c + (if declaresFn nm.text l.text then 1 else 0) := by split <;> omega
        rw [hcnt] at h
        have hfirst := completeFrom_first c nm.text l.text ((l2 :: rest).map (·.text))
        by_cases hcond : sizesFn nm.text l.text = true ∧ c + (if declaresFn nm.text l.text then 1 else 0) - 1 = 0
        · rw [if_pos hcond] at h
          simp only [Option.some.injEq] at h
          subst h
          refine Or.inl ⟨rfl, by simp, by simp, ?_, by simp⟩
          simp only [List.length_singleton, Nat.sub_self, List.map_cons] at hfirst ⊢
          rw [hfirst]
          exact ⟨hcond.1, by omega⟩
        · rw [if_neg hcond, Option.map_eq_some_iff] at h
          obtain ⟨x, h1, rfl⟩ := h
          have hcnt2 : (if sizesFn nm.text l.text = true then c + (if declaresFn nm.text l.text then 1 else 0) - 1
              else c + (if declaresFn nm.text l.text then 1 else 0)) =
              c + (if declaresFn nm.text l.text then 1 else 0) - (if sizesFn nm.text l.text then 1 else 0) := by
            split <;> omega
          rw [hcnt2] at h1
          have hih := ih _ _ (by simp) (fun l hl => hdir l (by simp [hl])) (fun l hl => hcold l (by simp [hl])) h1
          have h0 : ¬ completeFrom c nm.text ((l :: l2 :: rest).map (·.text)) 0 := by
            rw [List.map_cons, hfirst]
            rintro ⟨g1, g2⟩
            exact hcond ⟨g1, by omega⟩
          have hs : ∀ k, completeFrom c nm.text ((l :: l2 :: rest).map (·.text)) (k + 1) ↔
              completeFrom (c + (if declaresFn nm.text l.text then 1 else 0) - (if sizesFn nm.text l.text then 1 else 0))
                nm.text ((l2 :: rest).map (·.text)) k := fun k => by
            rw [List.map_cons]; exact completeFrom_cons c nm.text l.text _ k
          rcases hih with ⟨a1, a2, a3, a4, a5⟩ | ⟨a1, a2, a3⟩
          · refine Or.inl ⟨a1, by simp, by simp only [List.length_cons] at *; omega, ?_, ?_⟩
            · rw [List.length_cons, Nat.add_sub_cancel]
              obtain ⟨m, hm⟩ : ∃ m, x.seen.length = m + 1 := ⟨x.seen.length - 1, by omega⟩
              rw [hm] at a4 ⊢
              rw [hs]
              simpa using a4
            · intro k hk
              rw [List.length_cons, Nat.add_sub_cancel] at hk
              cases k with
              | zero => exact h0
              | succ k => rw [hs]; exact a5 k (by omega)
          · refine Or.inr ⟨a1, by simp only [List.length_cons] at *; omega, ?_⟩
            intro k hk
            cases k with
            | zero => exact h0
            | succ k => rw [hs]; exact a3 k (by simp only [List.length_cons] at *; omega)

theorem funcStartLoop_named : ∀ (ls : List Ln) (nm nm' : Kpstr), nm.Ok → nm.l ≠ 0 →
    funcStartLoop false true nm ls = some (some nm') → nm'.text = nm.text := by
  intro ls
  induction ls with
  | nil =>
    intro nm nm' _ _ h
    simp only [funcStartLoop, if_true, Option.some.injEq] at h
    rw [h]
  | cons l r ih =>
    intro nm nm' hok hl h
    rw [funcStartLoop] at h
    split at h
    · exact ih _ _ hok hl h
    split at h
    · exact ih _ _ hok hl h
    split at h
    · cases h
    dsimp only at h
    split at h
    · split at h
      · cases h
      · rename_i hc
        have heq : kpstrcmp nm (symArg l.text) = 0 := by
          by_contra hne
          exact hc ⟨hl, hne⟩
        rw [kpstrcmp_zero hok (symArg_ok _)] at heq
        rw [Bool.true_or] at h
        have hl2 : (symArg l.text).l ≠ 0 := by
          intro e
          have : nm.text.length = nm.l := by
            unfold Kpstr.text; rw [List.length_take]; have : nm.l ≤ nm.s.length := hok; omega
          rw [heq] at this
          simp [Kpstr.text, e] at this
          omega
        rw [ih _ _ (symArg_ok _) hl2 h, heq]
    · split at h
      · exact ih _ _ hok hl h
      · simp only [if_true, Option.some.injEq] at h
        rw [h]

theorem funcStartLoop_header : ∀ (ls : List Ln) (first : Bool) (nm nm' : Kpstr), nm.Ok →
    (∀ l ∈ ls, l.dir = parseCtype l.text) → funcStartLoop first false nm ls = some (some nm') →
    ∃ (k : Nat) (l : Ln), ls[k]? = some l ∧ DeclaresExactly nm'.text l.text ∧ ∀ j < k, ∀ l', ls[j]? = some l' → l'.dir ≠ .size := by
  intro ls
  induction ls with
  | nil => intro first nm nm' _ _ h; simp [funcStartLoop] at h
  | cons l r ih =>
    intro first nm nm' hok hdir h
    have next : ∀ (nm2 : Kpstr), nm2.Ok → l.dir ≠ .size → funcStartLoop false false nm2 r = some (some nm') →
        ∃ (k : Nat) (l' : Ln), (l :: r)[k]? = some l' ∧ DeclaresExactly nm'.text l'.text ∧
          ∀ j < k, ∀ l', (l :: r)[j]? = some l' → l'.dir ≠ .size := by
      intro nm2 h2 hs h
      obtain ⟨k, l', a, b, c⟩ := ih false nm2 nm' h2 (fun l hl => hdir l (by simp [hl])) h
      refine ⟨k + 1, l', by simpa using a, b, fun j hj l'' hl'' => ?_⟩
      cases j with
      | zero => simp only [List.getElem?_cons_zero, Option.some.injEq] at hl''; rw [← hl'']; exact hs
      | succ j => exact c j (by omega) l'' (by simpa using hl'')
    rw [funcStartLoop] at h
    split at h
    · rename_i he
      refine next nm hok ?_ h
      rw [hdir l (by simp), he.2, Ne, (dir_tok _).2.1]
      decide +kernel
    split at h
    · rename_i he
      refine next nm hok ?_ h
      intro hs
      rw [hs] at he
      simp [isSectCmd] at he
    split at h
    · cases h
    rename_i args hargs
    dsimp only at h
    split at h
    · rename_i hcond
      split at h
      · cases h
      · by_cases ht : l.dir = .type
        · refine ⟨0, l, by simp, ?_, by simp⟩
          have hfn : isFnAttr args = true := by
            rw [ht] at hcond
            simpa using hcond
          rw [decide_eq_true ht, Bool.or_true] at h
          rw [hdir l (by simp), (dir_tok _).1] at ht
          unfold typeArgs at hargs
          dsimp only at hargs
          rw [if_neg (by rw [Decidable.not_not, tokIs_iff]; exact ht)] at hargs
          split at hargs
          · cases hargs
          rename_i hcomma
          rw [Decidable.not_not] at hcomma
          unfold kpstrcmpz at hcomma
          rw [kpstrcmp_zero (getToken_ok _) (kpz_ok _), kpz_text] at hcomma
          cases hargs
          unfold isFnAttr at hfn
          rw [decide_eq_true_iff] at hfn
          unfold kpstrcmpz at hfn
          rw [kpstrcmp_zero (getToken_ok _) (kpz_ok _), kpz_text] at hfn
          have hl2 : (symArg l.text).l ≠ 0 := by
            intro e
            have hne : (getToken (getToken (getToken (some l.text)).2).2).1.text ≠ [] := by
              rw [hcomma]; decide +kernel
            apply hne
            have hsec : (getToken (getToken (some l.text)).2).2 = none := by
              cases hx : (getToken (some l.text)).2 with
              | none => rfl
              | some x =>
                by_cases hend : atEnd (skipBlanks x) = true
                · unfold getToken; rw [getTokenD_end _ _ hend]
                · exfalso
                  rw [Bool.not_eq_true] at hend
                  obtain ⟨b, t, r', _, h2, _, _, h3, _⟩ := getTokenD_some delims x hend
                  unfold symArg at e
                  rw [hx] at e
                  unfold getToken at e
                  rw [h3] at e
                  simp only [List.length_eq_zero_iff] at e
                  exact h2 e
            rw [hsec]
            rfl
          have htext := funcStartLoop_named _ _ _ (symArg_ok _) hl2 h
          rw [fnAttr_eq] at hfn
          exact ⟨ht, by rw [htext]; rfl, hcomma, hfn⟩
        · rw [decide_eq_false ht, Bool.or_false] at h
          refine next _ (symArg_ok _) ?_ h
          intro hs
          rw [hs] at hcond
          simp at hcond
    · split at h
      · rename_i hch
        refine next nm hok ?_ h
        intro hs
        unfold isColdHotLabel at hch
        rw [hs] at hch
        simp at hch
      · simp at h

/-- On AArch64 no `.type` declares a cold part of the function. -/
def NoColdPart (ls : List Ln) (n : List Byte) : Prop :=
  ∀ l ∈ ls, AsmTarget.isa = .aarch64 → declaresFn n l.text = true → secondTok l.text = n

/-- What C64 says of a block of a function. -/
def FnBlockOk (ls : List Ln) (b : Cblock) : Prop :=
  NoColdPart ls b.name.text → ∃ m, FnExtent b.name.text ((ls.drop b.start).map (·.text)) m ∧ b.start + m ≤ b.stop ∧
    (b.start + m < b.stop → ∃ l, ls[b.stop - 1]? = some l ∧ firstTok l.text ∈ dataDefs ∧ secondTok l.text = b.name.text) ∧
    ∃ (k : Nat) (l : Ln), b.start ≤ k ∧ k < b.start + m ∧ ls[k]? = some l ∧ DeclaresExactly b.name.text l.text

theorem otherLoop_update_line (bs : List Cblock) (hok : ∀ b ∈ bs, b.name.Ok) : ∀ (ls : List Ln) (flag : ExtFlag) (n : Nat),
    otherLoop bs flag ls = some (n, .update) → flag ≠ .update →
    ∃ b l, bs.getLast? = some b ∧ b.ty = .func ∧ 0 < n ∧ ls[n - 1]? = some l ∧ firstTok l.text ∈ dataDefs ∧
      secondTok l.text = b.name.text := by
  intro ls
  induction ls with
  | nil => intro flag n h hf; simp only [otherLoop, Option.some.injEq, Prod.mk.injEq] at h; exact absurd h.2 hf
  | cons l rest ih =>
    intro flag n h hf
    have next : ∀ fl, fl ≠ .update → (otherLoop bs fl rest).map (fun x => (x.1 + 1, x.2)) = some (n, .update) →
        ∃ b l', bs.getLast? = some b ∧ b.ty = .func ∧ 0 < n ∧ (l :: rest)[n - 1]? = some l' ∧
          firstTok l'.text ∈ dataDefs ∧ secondTok l'.text = b.name.text := by
      intro fl hfl h
      rw [Option.map_eq_some_iff] at h
      obtain ⟨⟨y, z⟩, h1, h2⟩ := h
      simp only [Prod.mk.injEq] at h2
      obtain ⟨rfl, rfl⟩ := h2
      obtain ⟨b, l', g1, g2, g3, g4, g5⟩ := ih _ _ h1 hfl
      refine ⟨b, l', g1, g2, by omega, ?_, g5⟩
      rw [Nat.add_sub_cancel]
      obtain ⟨y', rfl⟩ : ∃ y', y = y' + 1 := ⟨y - 1, by omega⟩
      simpa using g4
    rw [otherLoop] at h
    split at h
    · cases h
    · simp only [Option.some.injEq, Prod.mk.injEq] at h; exact absurd h.2 hf
    · dsimp only at h
      have hfl : (if l.dir = .sect ∧ l.sect.name = lit ".init_array" then ExtFlag.iniarr else flag) ≠ .update := by
        split
        · simp
        · exact hf
      generalize (if l.dir = .sect ∧ l.sect.name = lit ".init_array" then ExtFlag.iniarr else flag) = fl at h hfl
      split at h
      · rename_i hcond
        split at h
        · simp only [Option.some.injEq, Prod.mk.injEq] at h; exact absurd h.2 hfl
        · rename_i b hb
          split at h
          · rename_i hm
            simp only [Option.some.injEq, Prod.mk.injEq] at h
            obtain ⟨rfl, -⟩ := h
            have hbok := hok b (List.mem_of_getLast? hb)
            rw [kpstrcmp_zero hbok (symArg_ok _)] at hm
            exact ⟨b, l, hb, hm.1, by omega, by simp, (isDataDef_iff _).mp hcond.2.2, hm.2.symm⟩
          · exact next _ hfl h
      · exact next _ hfl h

theorem cblockAdd_mem {bs bs' : List Cblock} {b : Cblock} (h : cblockAdd bs b = some bs') : bs' = bs ++ [b] := by
  unfold cblockAdd at h
  split at h
  · cases h
  · cases h; rfl

theorem cblockStep_fn {ls0 : List Ln} {st st' : CbState} {l : Ln} (hdir : ∀ l ∈ ls0, l.dir = parseCtype l.text)
    (h : CbInv ls0 st) (hfn : ∀ b ∈ st.bs, b.ty = .func → FnBlockOk ls0 b) (hl : st.ls[st.i]? = some l)
    (hs : cblockStep st l = some st') : ∀ b ∈ st'.bs, b.ty = .func → FnBlockOk ls0 b := by
  have hl0 : ls0[st.i]? = some l := by rw [← hl]; exact (getElem?_of_drop_eq h.tail).symm
  have hlt : st.i < ls0.length := (List.getElem?_eq_some_iff.mp hl0).1
  have add : ∀ {b : Cblock} {bs : List Cblock}, cblockAdd st.bs b = some bs → (b.ty = .func → FnBlockOk ls0 b) →
      ∀ b ∈ bs, b.ty = .func → FnBlockOk ls0 b := by
    intro b bs ha hb c hc hf
    rw [cblockAdd_mem ha, List.mem_append, List.mem_singleton] at hc
    rcases hc with hc | rfl
    · exact hfn c hc hf
    · exact hb hf
  unfold cblockStep at hs
  split at hs
  · cases hs; exact hfn
  split at hs
  · cases hs
  · rename_i nm hf
    have hok : nm.Ok := funcStartLoop_ok _ _ _ _ _ empty_ok hf
    unfold initFuncBlock at hs
    rw [Option.bind_eq_some_iff] at hs
    obtain ⟨r, h1, h2⟩ := hs
    dsimp only at h2
    rw [Option.map_eq_some_iff] at h2
    obtain ⟨bs, h3, rfl⟩ := h2
    refine add h3 fun _ hcold => ?_
    rw [h.tail] at h1 hf
    have hdd : ∀ l ∈ ls0.drop st.i, l.dir = parseCtype l.text := fun l hl => hdir l (List.mem_of_mem_drop hl)
    have hne : ls0.drop st.i ≠ [] := by rw [Ne, List.drop_eq_nil_iff]; omega
    obtain ⟨k, l', g1, g2, g3⟩ := funcStartLoop_header _ _ _ _ empty_ok hdd hf
    have hkl : k < (ls0.drop st.i).length := (List.getElem?_eq_some_iff.mp g1).1
    have hsz : ∀ j, completeAt nm.text ((ls0.drop st.i).map (·.text)) j → k ≤ j := by
      rintro j ⟨x, hx, hy, -⟩
      by_contra hc
      rw [List.getElem?_map, Option.map_eq_some_iff] at hx
      obtain ⟨y, hy1, rfl⟩ := hx
      have := g3 j (by omega) y hy1
      rw [hdd y (List.mem_of_getElem? hy1), Ne, (dir_tok _).2.1] at this
      unfold sizesFn at hy
      simp [this] at hy
    have hkl' : ls0[st.i + k]? = some l' := by rw [← g1, List.getElem?_drop]
    rcases funcScan_spec nm hok _ _ _ hne hdd (fun l hl => hcold l (List.mem_of_mem_drop hl)) h1 with ⟨a1, a2, a3, a4, a5⟩ | ⟨a1, a2, a3⟩
    · rw [completeFrom_zero] at a4
      have hk := hsz _ a4
      refine ⟨r.seen.length, Or.inl ⟨a2, by simpa using a3, a4, fun k hk => by
        rw [← completeFrom_zero]; exact a5 k hk⟩, ?_, ?_, st.i + k, l', by dsimp only; omega,
        by dsimp only; omega, hkl', g2⟩
      · dsimp only; omega
      · dsimp only; rw [a1]; simp
    · refine ⟨r.seen.length + 1, Or.inr ⟨by rw [List.length_map]; omega, fun k hk => by
        rw [← completeFrom_zero]; exact a3 k (by simpa using hk)⟩, ?_, ?_, st.i + k, l', by dsimp only; omega,
        by dsimp only; omega, hkl', g2⟩
      · dsimp only; rw [a1]; simp; omega
      · dsimp only; rw [a1]; simp; omega
  · split at hs
    · cases hs
    · unfold initVarBlock at hs
      rw [Option.bind_eq_some_iff] at hs
      obtain ⟨r, h1, h2⟩ := hs
      rw [Option.map_eq_some_iff] at h2
      obtain ⟨bs, h3, rfl⟩ := h2
      exact add h3 (fun e => by cases e)
    · split at hs
      · unfold initSetBlock at hs
        rw [Option.map_eq_some_iff] at hs
        obtain ⟨bs, h3, rfl⟩ := hs
        exact add h3 (fun e => by cases e)
      split at hs
      · unfold initAttrBlock at hs
        dsimp only at hs
        split at hs
        · cases hs; exact hfn
        · rw [Option.map_eq_some_iff] at hs
          obtain ⟨bs, h3, rfl⟩ := hs
          exact add h3 (fun e => by cases e)
      · unfold initOtherBlock at hs
        rw [Option.bind_eq_some_iff] at hs
        obtain ⟨⟨n, flag⟩, h1, h2⟩ := hs
        dsimp only at h2
        split at h2
        · cases h2
          obtain ⟨b, l', g1, g2, g3, g4, g5, g6⟩ := otherLoop_update_line _ h.ok _ _ _ h1 (by simp)
          obtain ⟨pre, hlast⟩ := List.getLast?_eq_some_iff.mp g1
          have hbs : extendLast st.bs (st.i + n) = pre ++ [{ b with stop := st.i + n }] := by
            unfold extendLast
            rw [g1]
            dsimp only
            rw [hlast, List.dropLast_concat]
          intro c hc hf
          dsimp only at hc
          rw [hbs, List.mem_append, List.mem_singleton] at hc
          rcases hc with hc | rfl
          · exact hfn c (by rw [hlast]; simp [hc]) hf
          · have hbm : b ∈ st.bs := by rw [hlast]; simp
            intro hcold
            obtain ⟨m, e1, e2, e3, e4⟩ := hfn b hbm g2 hcold
            have hb := h.bounds b hbm
            refine ⟨m, e1, by dsimp only; omega, fun _ => ⟨l', ?_, g5, g6⟩, e4⟩
            dsimp only
            rw [h.tail, List.getElem?_drop] at g4
            rw [show st.i + n - 1 = st.i + (n - 1) by omega]
            exact g4
        · rw [Option.map_eq_some_iff] at h2
          obtain ⟨bs, h3, rfl⟩ := h2
          exact add h3 (fun e => by cases e)
        · rw [Option.bind_eq_some_iff] at h2
          obtain ⟨m, h3, h4⟩ := h2
          rw [Option.map_eq_some_iff] at h4
          obtain ⟨bs, h5, rfl⟩ := h4
          exact add h5 (fun e => by cases e)

theorem cblocksLoop_fn {ls0 : List Ln} (hdir : ∀ l ∈ ls0, l.dir = parseCtype l.text) :
    ∀ (fuel : Nat) (st st' : CbState), CbInv ls0 st → (∀ b ∈ st.bs, b.ty = .func → FnBlockOk ls0 b) →
      cblocksLoop fuel st = some st' → ∀ b ∈ st'.bs, b.ty = .func → FnBlockOk ls0 b := by
  intro fuel
  induction fuel with
  | zero => intro st st' _ hfn hs; simp only [cblocksLoop, Option.some.injEq] at hs; subst hs; exact hfn
  | succ fuel ih =>
    intro st st' h hfn hs
    rw [cblocksLoop] at hs
    split at hs
    · cases hs; exact hfn
    · rename_i l hl
      rw [Option.bind_eq_some_iff] at hs
      obtain ⟨st1, h1, h2⟩ := hs
      exact ih st1 st' (cblockStep_inv hdir h hl h1).1 (cblockStep_fn hdir h hfn hl h1) h2

/-- C64: the block of a function has the line that declares it, `.type n, @function`, and goes up to the first line at
which every `.type` of the function or of its cold parts has had its `.size`, or to the end of the file; if it is
longer, its last line is a datum with the function's name (the entry of a constructor table).  Missing: functions with a
cold part on AArch64 (`C64_violated_cold_aarch64`). -/
theorem C64_function_extent_partial (known k : List SectInfo) (stmts : List (List Byte)) (ls : List Ln) (st : CbState)
    (hls : makeLines known stmts = some (ls, k)) (hne : ls ≠ []) (h : cblocksInit ls = some st) (b : Cblock)
    (hb : b ∈ st.bs) (hf : b.ty = .func)
    (hcold : AsmTarget.isa ≠ .aarch64 ∨ ∀ l ∈ ls, declaresFn b.name.text l.text = true → secondTok l.text = b.name.text) :
    ∃ m, FnExtent b.name.text ((ls.drop b.start).map (·.text)) m ∧ b.start + m ≤ b.stop ∧
      (b.start + m < b.stop → ∃ l, ls[b.stop - 1]? = some l ∧ firstTok l.text ∈ dataDefs ∧ secondTok l.text = b.name.text) ∧
      ∃ (k : Nat) (l : Ln), b.start ≤ k ∧ k < b.start + m ∧ ls[k]? = some l ∧ DeclaresExactly b.name.text l.text := by
  have hpos : 0 < ls.length := List.length_pos_iff.mpr hne
  have h0 : CbInv ls ⟨ls, [], 1⟩ := ⟨rfl, rfl, Nat.le_refl _, hpos, by simp, by simp, by simp, by simp,
    fun k l h1 h2 => absurd h2 (by dsimp only; omega)⟩
  exact cblocksLoop_fn (makeLines_dir hls) ls.length _ st h0 (by simp) h b hb hf
    (fun l hl ha => hcold.elim (fun hc => absurd ha hc) (fun hc => hc l hl))

end Target

section X86

attribute [local instance] x86Asm

/-- The block of a function with a cold part reaches over the first `.size` to the second. -/
example : ((makeLines predefinedSections [[], lit "\t.type f, @function", lit "f:", lit "\t.section .text.unlikely",
      lit "\t.type f.cold.1, @function", lit "f.cold.1:", lit "\tnop", lit "\t.text", lit "\t.size f, .-f",
      lit "\t.section .text.unlikely", lit "\t.size f.cold.1, .-f.cold.1", lit "\t.ident \"x\""]).bind
      fun r => cblocksInit r.1).map (fun st => st.bs.map fun b => (b.start, b.stop, b.name.text)) =
    some [(1, 11, lit "f"), (11, 12, [])] := by decide +kernel

end X86

section A64

attribute [local instance] a64Asm

/-- A function with a cold part, as gcc writes it. -/
def coldFile : List (List Byte) :=
  [[], lit "\t.type f, %function", lit "f:", lit "\t.section .text.unlikely", lit "\t.type f.cold, %function",
   lit "f.cold:", lit "\tnop", lit "\t.text", lit "\t.size f, .-f", lit "\t.section .text.unlikely",
   lit "\t.size f.cold, .-f.cold", lit "\t.ident \"x\""]

theorem cold1 : (makeLines predefinedSections coldFile).isSome = true := by decide +kernel
theorem cold2 : (cblocksInit ((makeLines predefinedSections coldFile).get cold1).1).isSome = true := by decide +kernel
theorem cold3 : ((cblocksInit ((makeLines predefinedSections coldFile).get cold1).1).get cold2).bs.head?.isSome = true := by
  decide +kernel

/-- C64 is violated on AArch64: the `.type` of the cold part does not count there, but its `.size` does, so the block of a
function with a cold part ends before the `.size` of the cold part.  The block has 8 lines where the function has 10. -/
theorem C64_violated_cold_aarch64 : ∃ (ls : List Ln) (k : List SectInfo) (st : CbState) (b : Cblock),
    makeLines predefinedSections coldFile = some (ls, k) ∧ cblocksInit ls = some st ∧ st.bs.head? = some b ∧ b.ty = .func ∧
    b.stop = b.start + 8 ∧ b.name.text = lit "f" ∧ FnExtent b.name.text ((ls.drop b.start).map (·.text)) 10 := by
  refine ⟨_, ((makeLines predefinedSections coldFile).get cold1).2, _, _, (Option.some_get cold1).symm,
    (Option.some_get cold2).symm, (Option.some_get cold3).symm, by decide +kernel, by decide +kernel, by decide +kernel, ?_⟩
  unfold FnExtent
  simp only [completeAt_iff]
  left
  decide +kernel

/-- A function of an AArch64 file without a cold part. -/
example : ((makeLines predefinedSections [[], lit "\t.type f, %function", lit "f:", lit "\tnop // x", lit "\t.size f, .-f",
      lit "\t.ident \"x\""]).bind fun r => cblocksInit r.1).map (fun st => st.bs.map fun b => (b.start, b.stop, b.name.text)) =
    some [(1, 5, lit "f"), (5, 6, [])] := by decide +kernel

end A64

end Verif
