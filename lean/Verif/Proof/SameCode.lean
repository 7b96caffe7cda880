import Verif.Spec.SameCode
import Verif.Props.Dbgfilter
/-
The comparison of two blocks is sound: blocks found the same are the same code.
-/
namespace Verif

variable [AsmTarget]

/-- The tokens of the lines that the renames count as the same are alike. -/
def AlikeOn (m0 m1 : NameMap) (R : List Byte → List Byte → Prop) (l0 l1 : List Ln) : Prop :=
  ∀ a ∈ l0, ∀ b ∈ l1, ∀ x ∈ tokens (some a.text), ∀ y ∈ tokens (some b.text), SameToken m0 m1 x.text y.text → R x.text y.text

theorem AlikeOn.sub {m0 m1 : NameMap} {R : List Byte → List Byte → Prop} {l0 l1 k0 k1 : List Ln} (h : AlikeOn m0 m1 R l0 l1)
    (h0 : ∀ a ∈ k0, a ∈ l0) (h1 : ∀ a ∈ k1, a ∈ l1) : AlikeOn m0 m1 R k0 k1 :=
  fun a ha b hb => h a (h0 a ha) b (h1 b hb)

/-- The specification for a comparison. -/
def CmpCtx.spec (c : CmpCtx) (R : List Byte → List Byte → Prop) : CmpSpec :=
  ⟨R, c.os, c.d0, c.d1, c.ty, c.n0.text, c.n1.text, c.sect⟩

theorem forall2_mem {α β : Type} {P Q : α → β → Prop} : ∀ {l0 : List α} {l1 : List β}, List.Forall₂ P l0 l1 →
    (∀ a ∈ l0, ∀ b ∈ l1, P a b → Q a b) → List.Forall₂ Q l0 l1 := by
  intro l0 l1 h
  induction h with
  | nil => intro _; exact .nil
  | cons hp _ ih => intro hq; exact .cons (hq _ (by simp) _ (by simp) hp) (ih fun a ha b hb => hq a (by simp [ha]) b (by simp [hb]))

theorem strcmp_sound {f0 f1 : Renames} {m0 m1 : NameMap} (h0 : RenRep f0 m0) (h1 : RenRep f1 m1) {c : CmpSpec} {a b : List Byte}
    (hR : ∀ x ∈ tokens (some a), ∀ y ∈ tokens (some b), SameToken m0 m1 x.text y.text → c.alike x.text y.text)
    (h : strcmpAfterRename f0 f1 (some a) (some b) = 0) : c.sameTokens a b :=
  forall2_mem ((C43_compare h0 h1 (some a) (some b)).2.mp h) hR

theorem skippedLine_iff {l : Ln} : skippedLine l = true ↔ Irrelevant l := by
  unfold skippedLine isSectCmd Irrelevant
  cases l.dir <;> simp

theorem mem_possible {s0 s1 : List Byte} {i : Nat} : i ∈ possibleFuncs s0 s1 ↔
    ∃ nm r, linenoFunctions[i]? = some (nm, r) ∧ r ≠ [] ∧ movConstReg s0 = r ∧ movConstReg s1 = r := by
  unfold possibleFuncs
  dsimp only
  split
  · rename_i h
    simp only [List.mem_filter, List.mem_range, decide_eq_true_eq, Option.map_eq_some_iff, Prod.exists, exists_eq_right]
    constructor
    · rintro ⟨h1, nm, h2⟩
      exact ⟨nm, _, h2, h.1, rfl, h.2⟩
    · rintro ⟨nm, r, h1, h2, h3, h4⟩
      exact ⟨(List.getElem?_eq_some_iff.mp h1).1, nm, by rw [h3]; exact h1⟩
  · rename_i h
    simp only [List.not_mem_nil, false_iff, not_exists, not_and]
    intro nm r h1 h2 h3 h4
    exact absurd h4 (by rw [← h3]; intro e; exact h ⟨by rw [h3]; exact h2, e⟩)

theorem secondTok_iff (s p : List Byte) : kpstrcmpz (getToken (getToken (some s)).2).1 p = 0 ↔ secondTok s = p := by
  unfold kpstrcmpz secondTok
  rw [kpstrcmp_zero (getToken_ok _) (kpz_ok _), kpz_text]

theorem linenoLoop_sound {f0 f1 : Renames} {m0 m1 : NameMap} (h0 : RenRep f0 m0) (h1 : RenRep f1 m1) {c : CmpSpec} :
    ∀ (n : Nat) (poss : List Nat) (l0 l1 k0 k1 : List Ln), AlikeOn m0 m1 c.alike l0 l1 →
    linenoLoop f0 f1 n poss l0 l1 = some (k0, k1) →
    ∃ seg0 seg1 init last i fn reg, l0 = seg0 ++ k0 ∧ l1 = seg1 ++ k1 ∧
      List.Forall₂ (fun x y : Ln => c.sameTokens x.text y.text) seg0 seg1 ∧ seg0.length ≤ n ∧
      seg0 = init ++ [last] ∧ i ∈ poss ∧ linenoFunctions[i]? = some (fn, reg) ∧
      firstTok last.text = lit "call" ∧ secondTok last.text = fn ∧
      (∀ x ∈ init, firstTok x.text ≠ lit "call") ∧
      List.Forall₂ (fun x y : Ln => i ∉ possibleFuncs x.text y.text) seg0 seg1 := by
  intro n
  induction n with
  | zero => intro poss l0 l1 k0 k1 _ h; simp [linenoLoop] at h
  | succ n ih =>
    intro poss l0 l1 k0 k1 hR h
    cases l0 with
    | nil => simp [linenoLoop] at h
    | cons a l0 =>
      cases l1 with
      | nil => simp [linenoLoop] at h
      | cons b l1 =>
        rw [linenoLoop] at h
        split at h
        · cases h
        · split at h
          · cases h
          · rename_i hs
            rw [Decidable.not_not] at hs
            have hs := strcmp_sound (c := c) h0 h1 (hR a (by simp) b (by simp)) hs
            split at h
            · rename_i hc
              rw [tokIs_iff] at hc
              split at h
              · rename_i hl
                cases h
                unfold linenoCall at hl
                rw [List.any_eq_true] at hl
                obtain ⟨i, hi, hl⟩ := hl
                rw [List.mem_filter] at hi
                split at hl
                · rename_i fn reg he
                  rw [decide_eq_true_eq, secondTok_iff] at hl
                  exact ⟨[a], [b], [], a, i, fn, reg, rfl, rfl, .cons hs .nil, by simp, rfl, hi.1, he, hc, hl, by simp,
                    .cons (by simpa using hi.2) .nil⟩
                · cases hl
              · cases h
            · rename_i hc
              rw [tokIs_iff] at hc
              obtain ⟨seg0, seg1, init, last, i, fn, reg, e0, e1, q1, q2, q3, q4, q5, q6, q7, q8, q9⟩ :=
                ih _ l0 l1 k0 k1 (hR.sub (by simp +contextual) (by simp +contextual)) h
              rw [List.mem_filter] at q4
              refine ⟨a :: seg0, b :: seg1, a :: init, last, i, fn, reg, by simp [e0], by simp [e1], .cons hs q1,
                by simp only [List.length_cons]; omega, by simp [q3], q4.1, q5, q6, q7, ?_, .cons (by simpa using q4.2) q9⟩
              intro x hx
              rcases List.mem_cons.mp hx with rfl | hx
              · exact hc
              · exact q8 x hx

theorem matchLineno_sound {f0 f1 : Renames} {m0 m1 : NameMap} (h0 : RenRep f0 m0) (h1 : RenRep f1 m1) {c : CmpSpec}
    {a b : Ln} {l0 l1 k0 k1 : List Ln} (hR : AlikeOn m0 m1 c.alike l0 l1) (h : matchLineno f0 f1 a b l0 l1 = some (k0, k1)) :
    ∃ seg0 seg1, l0 = seg0 ++ k0 ∧ l1 = seg1 ++ k1 ∧ LinenoCall c a b seg0 seg1 := by
  unfold matchLineno at h
  dsimp only at h
  split at h
  · cases h
  · obtain ⟨seg0, seg1, init, last, i, fn, reg, e0, e1, q1, q2, q3, q4, q5, q6, q7, q8, q9⟩ := linenoLoop_sound h0 h1 _ _ _ _ _ _ hR h
    obtain ⟨nm, r, w1, w2, w3, w4⟩ := mem_possible.mp q4
    rw [q5] at w1
    cases w1
    refine ⟨seg0, seg1, e0, e1, q1, q2, fn, reg, init, last, List.mem_of_getElem? q5, w3, w4, q3, q6, q7, q8, ?_⟩
    refine q9.imp fun x y hxy hc => hxy (mem_possible.mpr ⟨fn, reg, q5, w2, hc.1, hc.2⟩)

theorem matchBugOn_sound {os : GenOs} {a b : Ln} (h : matchBugOn os a b = true) : BugLine os a b := by
  unfold matchBugOn at h
  unfold BugLine
  have tz : ∀ (s : Option (List Byte)) (p : List Byte), kpstrcmpz (getToken s).1 p = 0 ↔ (getToken s).1.text = p := by
    intro s p
    unfold kpstrcmpz
    rw [kpstrcmp_zero (getToken_ok _) (kpz_ok _), kpz_text]
  have key : ∀ s, bugLine5 s = true → BugStatement s := by
    intro s h
    unfold bugLine5 at h
    simp only [Bool.and_eq_true, decide_eq_true_eq, Option.isNone_iff_eq_none] at h
    obtain ⟨⟨⟨⟨⟨h1, h2⟩, h3⟩, h4⟩, h5⟩, h6⟩ := h
    rw [tz] at h1 h2 h3 h4 h5
    exact ⟨_, _, rfl, h1, h2, h3, rfl, h4, h5, h6⟩
  cases os with
  | rhel5 =>
    simp only [Bool.and_eq_true] at h
    exact ⟨key _ h.1, key _ h.2⟩
  | rhel6 =>
    dsimp only at h ⊢
    split at h
    · cases h
    · rename_i hn
      rw [not_or, Decidable.not_not, Decidable.not_not] at hn
      refine ⟨hn.1, hn.2, ?_⟩
      split at h
      · rename_i hp
        exact Or.inl (by simpa using hp)
      · right
        simp only [Bool.and_eq_true, decide_eq_true_eq, tokIs_iff] at h
        exact h

theorem kpstrskip_ok {x : Kpstr} (hx : x.Ok) (n : Nat) : (kpstrskip x n).Ok ∧ (kpstrskip x n).text = x.text.drop n := by
  unfold Kpstr.Ok kpstrskip Kpstr.text
  unfold Kpstr.Ok at hx
  refine ⟨by simp only [List.length_drop]; omega, ?_⟩
  dsimp only
  rw [List.drop_take]

theorem matchBuildPath_sound {d0 d1 : List Byte} {a b : Ln} (h : matchBuildPath d0 d1 a b = true) : BuildPath d0 d1 a b := by
  unfold matchBuildPath at h
  dsimp only at h
  split at h
  · cases h
  · rename_i h1
    rw [or_self, Decidable.not_not, tokIs_iff] at h1
    split at h
    · cases h
    · rename_i h2
      rw [not_or, Decidable.not_not, Decidable.not_not, C41_prefix _ (getToken_ok _), C41_prefix _ (getToken_ok _)] at h2
      have ka := kpstrskip_ok (getToken_ok (getToken (some a.text)).2) 1
      have kb := kpstrskip_ok (getToken_ok (getToken (some b.text)).2) 1
      split at h
      · cases h
      · rename_i h3
        rw [not_or, Decidable.not_not, Decidable.not_not, C41_prefix _ ka.1, C41_prefix _ kb.1, ka.2, kb.2] at h3
        have ka2 := kpstrskip_ok ka.1 d0.length
        have kb2 := kpstrskip_ok kb.1 d1.length
        rw [decide_eq_true_eq, kpstrcmp_zero ka2.1 kb2.1, ka2.2, kb2.2, ka.2, kb.2] at h
        obtain ⟨⟨x, hx⟩, ⟨y, hy⟩⟩ := h2
        obtain ⟨⟨u, hu⟩, ⟨v, hv⟩⟩ := h3
        have hq : (lit "\"").length = 1 := by decide +kernel
        rw [← hx, ← hq, List.drop_left] at hu
        rw [← hy, ← hq, List.drop_left] at hv
        refine ⟨h1, u, ?_, ?_⟩
        · show (getToken (getToken (some a.text)).2).1.text = _
          rw [← hx, ← hu, List.append_assoc]
        · show (getToken (getToken (some b.text)).2).1.text = _
          rw [← hy, ← hv, List.append_assoc]
          rw [← hx, ← hy, ← hu, ← hv, ← hq, List.drop_left, List.drop_left, List.drop_left, List.drop_left] at h
          rw [h]

theorem matchDescriptor_sound {n0 n1 : Kpstr} (h0 : n0.Ok) (h1 : n1.Ok) {a b : Ln} (h : matchDescriptor n0 n1 a b = true) :
    DescriptorByte n0.text n1.text a b := by
  unfold matchDescriptor descStr at h
  simp only [Bool.and_eq_true, decide_eq_true_eq, C41_prefix _ h0, C41_prefix _ h1, tokIs_iff] at h
  exact ⟨h.1.1.1, h.1.1.2, h.1.2, h.2⟩

theorem sectDiffers_iff {c : CmpCtx} {R : List Byte → List Byte → Prop} {a b : Ln} (h : ¬ (c.sect && sectDiffers a b) = true) :
    (c.spec R).sameSection a b := by
  unfold sectDiffers at h
  unfold CmpSpec.sameSection CmpCtx.spec
  intro hs
  dsimp only at hs
  rw [hs] at h
  by_cases e : a.sect.name = b.sect.name
  · exact Or.inl e
  · right
    simp only [Bool.true_and, e, not_false_eq_true, decide_true, ne_eq, decide_not, Bool.and_eq_true, Bool.not_eq_true',
      decide_eq_false_iff_not, not_and, Decidable.not_not] at h
    by_cases h1 : a.dir = .lcl
    · simp [h1]
    · by_cases h2 : a.dir = .comm
      · simp [h2]
      · by_cases h3 : b.dir = .lcl
        · simp [h3]
        · have := h ⟨⟨h1, h2⟩, h3⟩
          simp [this]

theorem skip_dropWhile {c : CmpSpec} : ∀ {l0 : List Ln} {l1 : List Ln}, SameCode c (l0.dropWhile skippedLine) l1 →
    SameCode c l0 l1 := by
  intro l0
  induction l0 with
  | nil => intro l1 h; exact h
  | cons a l0 ih =>
    intro l1 h
    rw [List.dropWhile_cons] at h
    split at h
    · rename_i ha
      exact .skip0 (skippedLine_iff.mp ha) (ih h)
    · exact h

theorem skip_dropWhile' {c : CmpSpec} : ∀ {l1 : List Ln} {l0 : List Ln}, SameCode c l0 (l1.dropWhile skippedLine) →
    SameCode c l0 l1 := by
  intro l1
  induction l1 with
  | nil => intro l0 h; exact h
  | cons a l1 ih =>
    intro l0 h
    rw [List.dropWhile_cons] at h
    split at h
    · rename_i ha
      exact .skip1 (skippedLine_iff.mp ha) (ih h)
    · exact h

/-- Blocks found the same are the same code. -/
theorem cmpLines_sound {c : CmpCtx} {m0 m1 : NameMap} (h0 : RenRep c.r0 m0) (h1 : RenRep c.r1 m1) (hn0 : c.n0.Ok) (hn1 : c.n1.Ok)
    {R : List Byte → List Byte → Prop} (hrefl : c.ren = false → ∀ x, R x x) :
    ∀ (n : Nat) (l0 l1 : List Ln), l0.length ≤ n → AlikeOn m0 m1 R l0 l1 → cmpLines c l0 l1 = true → SameCode (c.spec R) l0 l1 := by
  intro n
  induction n with
  | zero =>
    intro l0 l1 hl _ h
    have : l0 = [] := List.length_eq_zero_iff.mp (by omega)
    subst this
    rw [cmpLines] at h
    cases hd : l1.dropWhile skippedLine with
    | nil => exact skip_dropWhile' (by rw [hd]; exact .nil)
    | cons b l1' => simp [hd] at h
  | succ n ih =>
    intro l0 l1 hl hR h
    rw [cmpLines] at h
    apply skip_dropWhile
    apply skip_dropWhile'
    have hsub0 : ∀ x ∈ l0.dropWhile skippedLine, x ∈ l0 := fun x hx => (List.dropWhile_sublist _).subset hx
    have hsub1 : ∀ x ∈ l1.dropWhile skippedLine, x ∈ l1 := fun x hx => (List.dropWhile_sublist _).subset hx
    have hlen := (List.dropWhile_sublist (l := l0) skippedLine).length_le
    split at h
    · rename_i e0 e1; rw [e0, e1]; exact .nil
    · cases h
    · cases h
    · rename_i a l0' b l1' e0 e1
      rw [e0, e1]
      rw [e0] at hsub0 hlen
      rw [e1] at hsub1
      simp only [List.length_cons] at hlen
      have hR2 : AlikeOn m0 m1 R (a :: l0') (b :: l1') := hR.sub hsub0 hsub1
      have hR3 : AlikeOn m0 m1 R l0' l1' := hR2.sub (by simp +contextual) (by simp +contextual)
      split at h
      · cases h
      · rename_i hsec
        have hsec := sectDiffers_iff (R := R) hsec
        split at h
        · rename_i hsame
          have hrec := ih l0' l1' (by omega) hR3 h
          unfold lineSame at hsame
          rw [Bool.or_eq_true] at hsame
          rcases hsame with hc | hs
          · simp only [Bool.and_eq_true, decide_eq_true_eq] at hc
            exact .comment hsec hc.1 hc.2 hrec
          · split at hs
            · rw [decide_eq_true_eq] at hs
              exact .line hsec (strcmp_sound h0 h1 (hR2 a (by simp) b (by simp)) hs) hrec
            · rename_i hr
              rw [decide_eq_true_eq] at hs
              refine .line hsec ?_ hrec
              rw [hs]
              unfold CmpSpec.sameTokens
              exact List.forall₂_same.mpr fun x _ => hrefl (by simpa using hr) _
        · split at h
          · rename_i k0 k1 hm
            split at hm
            · rename_i hf
              have hlen2 := matchLineno_length _ _ _ _ _ _ _ _ hm
              obtain ⟨seg0, seg1, e0', e1', hcall⟩ := matchLineno_sound (c := c.spec R) h0 h1 hR3 hm
              subst e0'
              subst e1'
              exact .lineno hf hsec hcall (ih k0 k1 (by omega) (hR3.sub (by simp +contextual) (by simp +contextual)) h)
            · cases hm
          · split at h
            · rename_i hd
              have hrec := ih l0' l1' (by omega) hR3 h
              unfold diffIgnored at hd
              simp only [Bool.or_eq_true, Bool.and_eq_true, decide_eq_true_eq] at hd
              rcases hd with ⟨hf, hb⟩ | ⟨hv, hp | hp⟩
              · exact .bug hf hsec (matchBugOn_sound hb) hrec
              · exact .path hv hsec (matchBuildPath_sound hp) hrec
              · exact .descriptor hv hsec (matchDescriptor_sound hn0 hn1 hp) hrec
            · cases h

end Verif
