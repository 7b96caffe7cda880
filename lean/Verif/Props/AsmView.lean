import Verif.Proof.AsmView
/-
C75: splitting a file into single statements does not change what the assembler reads.
-/
namespace Verif

section Target

variable [AsmTarget]

/-- The comment tokens the tool knows on the architecture. -/
def AsmSyntax.tool (syn : AsmSyntax) : Bool := decide (syn = .slashes)

/-- What the end of a statement means for the assembler. -/
def StmtEnd.Keeps (syn : AsmSyntax) (s : List Byte) : StmtEnd → Prop
  | .comment => True
  | .cut n none => asmView syn (s.take n) = asmView syn s
  | .cut n (some r) => asmView syn s = asmView syn (s.take n) ++ asmView syn r ∧ UsualLine syn r

theorem allBlank_of_skip {x : List Byte} (hn : 0x0a#8 ∉ x) (h : atEnd (skipBlanks x) = true) : AllBlank x := by
  obtain ⟨b, hb, e⟩ := skipBlanks_split x
  rw [atEnd_iff] at h
  rcases h with h | h
  · rw [h, List.append_nil] at e
    rw [e]; exact hb
  · exfalso
    apply hn
    rw [e]
    cases hs : skipBlanks x with
    | nil => rw [hs] at h; simp at h
    | cons y z =>
      rw [hs] at h
      simp only [List.head?_cons, Option.some.injEq] at h
      simp [h]

theorem trim_word {w b : List Byte} (hb : AllBlank b) (hl : ∀ c, w.getLast? = some c → isBlank c = false) :
    asmTrim (w ++ b) = w := by
  have hbl : ∀ c, asmBlank c = isBlank c := by
    intro c; unfold asmBlank isBlank; simp [← beq_iff_eq]
  unfold asmTrim
  rw [List.reverse_append, List.dropWhile_append_of_pos (by
    intro c hc
    rw [hbl, isBlank_iff]
    exact hb c (by simpa using hc))]
  rcases List.eq_nil_or_concat w with rfl | ⟨d, x, rfl⟩
  · rfl
  · rw [List.concat_eq_append] at hl ⊢
    rw [List.reverse_append, List.reverse_singleton, List.singleton_append, List.dropWhile_cons, if_neg (by
      rw [hbl, hl x (by simp)]; decide)]
    simp

theorem scan_view {syn : AsmSyntax} (hsyn : slashComments = syn.tool) : ∀ (n : Nat) (pre e : List Byte) (first : Bool), e.length ≤ n →
    UsualLine syn (pre ++ e) → (first = true → pre = []) →
    (Quiet e ∨ ((asmAfter syn pre).mode = .code ∧ (WordStart pre ∨ ∃ c, e.head? = some c ∧ asmDelim c = true))) →
    (scanStmt (pre ++ e) (some e) first).Keeps syn (pre ++ e) := by
  intro n
  induction n with
  | zero =>
    intro pre e first he hu hf hI
    have : e = [] := List.length_eq_zero_iff.mp (by omega)
    subst this
    rw [scanStmt, hsyn]
    have : getToken (some []) = (⟨[], 0⟩, none) := by decide +kernel
    split
    rename_i t se' hg
    rw [this] at hg
    simp only [Prod.mk.injEq] at hg
    obtain ⟨rfl, rfl⟩ := hg
    simp only [List.append_nil, Nat.reduceEqDiff, false_and, and_false, if_false, StmtEnd.Keeps, List.take_length]
  | succ n ih =>
    intro pre e first he hu hf hI
    have hnl : 0x0a#8 ∉ e := fun h => hu.noNewline (by simp [h])
    rw [scanStmt, hsyn]
    split
    rename_i t se' hg
    by_cases hend : atEnd (skipBlanks e) = true
    · rw [show getToken (some e) = _ from getTokenD_end delims e hend] at hg
      simp only [Prod.mk.injEq] at hg
      obtain ⟨rfl, rfl⟩ := hg
      simp only [Nat.reduceEqDiff, false_and, and_false, if_false, StmtEnd.Keeps, List.take_length]
    · obtain ⟨b, tk, r, hb, htk, hs, hr, h1, h2⟩ := getTokenD_some delims e (by simpa using hend)
      have hg1 : (getToken (some e)).1 = ⟨tk ++ r, tk.length⟩ := h1
      have hg2 : (getToken (some e)).2 = if atEnd (skipBlanks r) then none else some (skipBlanks r) := h2
      rw [hg] at hg1 hg2
      simp only at hg1 hg2
      subst hg1
      have hsk : skipBlanks e = tk ++ r := by
        have : (getToken (some e)).1.s = skipBlanks e := by
          simp [getToken, getTokenD, show atEnd (skipBlanks e) = false by simpa using hend]
        rw [hg] at this
        exact this.symm
      have hhead : ∀ c, tk.head? = some c → isBlank c = false := by
        intro c hc
        apply skipBlanks_head' e c
        rw [hsk]
        cases tk with
        | nil => simp at hc
        | cons x y => exact hc
      rw [hsk] at hr
      have hnlr : 0x0a#8 ∉ r := fun h => hnl (by rw [hs]; simp [h])
      have hlen1 : tk.length = 1 → ∀ c, (tk ++ r).head? = some c → tk = [c] := by
        intro hl c hc
        match tk, hl with
        | [x], _ => simp only [List.cons_append, List.head?_cons, Option.some.injEq] at hc; rw [hc]
      by_cases hc1 : tk.length = 1 ∧ (tk ++ r).head? = some 35#8
      · rw [if_pos hc1]; exact True.intro
      rw [if_neg hc1]
      by_cases hc2 : syn.tool = true ∧ tk.length = 2 ∧ (tk ++ r).head? = some 47#8 ∧ ((tk ++ r).drop 1).head? = some 47#8
      · rw [if_pos hc2]; exact True.intro
      rw [if_neg hc2]
      by_cases hc3 : tk.length = 1 ∧ (tk ++ r).head? = some 59#8
      · -- a separator
        rw [if_pos hc3]
        have htk' := hlen1 hc3.1 _ hc3.2
        subst htk'
        have hmode : (asmAfter syn pre).mode = .code := by
          rcases hI with h | h
          · exact absurd (by rw [hs]; simp) h.1
          · exact h.1
        have hmode' : (asmAfter syn (pre ++ b)).mode = .code := by
          rw [asmAfter_append]; exact (asm_blanks_code syn hb _ hmode).1
        have hwhole : pre ++ e = (pre ++ b) ++ 59#8 :: r := by rw [hs]; simp
        obtain ⟨f1, f2, f3⟩ := asmView_semi syn (pre ++ b) r hmode'
        have htake : (pre ++ e).take ((pre ++ e).length - ([59#8] ++ r).length) = pre ++ b := by
          rw [hwhole]
          rw [show ([59#8] ++ r : List Byte) = 59#8 :: r from rfl, List.length_append, Nat.add_sub_cancel]
          exact List.take_left
        by_cases hend2 : atEnd (skipBlanks r) = true
        · rw [if_pos hend2] at hg2
          subst hg2
          show asmView syn _ = _
          have hbr := allBlank_of_skip hnlr hend2
          rw [htake, hwhole, f3]
          have := asmView_blanks syn hbr []
          rw [List.append_nil] at this
          rw [this]
          show _ = _ ++ []
          rw [List.append_nil]
        · rw [if_neg hend2] at hg2
          subst hg2
          show asmView syn _ = _ ∧ _
          obtain ⟨bl, hbl, hbr⟩ := skipBlanks_split r
          refine ⟨?_, ?_⟩
          · rw [htake, hwhole, f3]
            congr 1
            conv => lhs; rw [hbr]
            exact asmView_blanks syn hbl _
          · have hst := asmBlanks syn hbl _ f1 f2
            rw [← asmAfter_append] at hst
            apply usual_rest (a := pre ++ b ++ [0x3b#8] ++ bl)
            · have : pre ++ e = pre ++ b ++ [59#8] ++ bl ++ skipBlanks r := by
                rw [hwhole]; conv => lhs; rw [hbr]
                simp
              rw [← this]; exact hu
            · rw [hst]; exact f1
            · rw [hst]; exact f2
      rw [if_neg hc3]
      -- any other token
      have ht1 : tk ≠ [0x3b#8] := by rintro rfl; exact hc3 ⟨rfl, rfl⟩
      have ht2 : tk ≠ [0x23#8] := by rintro rfl; exact hc1 ⟨rfl, rfl⟩
      have ht3 : syn = .slashes → tk ≠ [0x2f#8, 0x2f#8] := by
        rintro rfl rfl
        exact hc2 ⟨rfl, rfl, rfl, rfl⟩
      by_cases hend2 : atEnd (skipBlanks r) = true
      · rw [if_pos hend2] at hg2
        subst hg2
        simp only [StmtEnd.Keeps, List.take_length]
      rw [if_neg hend2] at hg2
      subst hg2
      obtain ⟨bl, hbl, hbr⟩ := skipBlanks_split r
      generalize he' : skipBlanks r = e' at *
      have hrne : r ≠ [] := by
        rintro rfl
        apply hend2
        rw [← he']
        rfl
      have hq : Quiet e' ∨ ((asmAfter syn (pre ++ b ++ tk)).mode = .code ∧
          (WordStart (pre ++ b ++ tk) ∨ ∃ c, r.head? = some c ∧ asmDelim c = true) ∧
          ((asmAfter syn (pre ++ b)).cur = [] → (asmAfter syn (pre ++ b ++ tk)).cur = tk)) := by
        rcases hI with h | ⟨hm, hw⟩
        · left
          exact ⟨fun x => h.1 (by rw [hs, hbr]; simp [x]), fun x => h.2 (by rw [hs, hbr]; simp [x])⟩
        · have := token_code (a := pre ++ b) (tk := tk) (r := r) (by
              rw [show pre ++ b ++ tk ++ r = pre ++ e by rw [hs]; simp]; exact hu)
            (by rw [asmAfter_append]; exact (asm_blanks_code syn hb _ hm).1) (by
              by_cases hb0 : b = []
              · subst hb0
                rw [List.append_nil]
                rcases hw with h | ⟨c, h1, h2⟩
                · exact Or.inl h
                · right
                  refine ⟨c, ?_, h2⟩
                  rw [hs] at h1
                  cases tk with
                  | nil => exact absurd rfl htk
                  | cons x y => exact h1
              · exact Or.inl (wordStart_blank hb hb0)) htk hhead hr.symm ht1 ht2 ht3
          rcases this with h | h | h
          · left
            exact ⟨fun x => h.1 (by rw [hbr]; simp [x]), fun x => h.2 (by rw [hbr]; simp [x])⟩
          · exact absurd h hrne
          · exact Or.inr h
      have hwhole : pre ++ e = pre ++ b ++ tk ++ bl ++ e' := by rw [hs, hbr]; simp
      dsimp only
      by_cases hlab : first = true ∧ e'.head? = some 58#8 ∧ e'.drop 1 ≠ []
      · rw [if_pos hlab]
        obtain ⟨l1, l2, l3⟩ := hlab
        have hp := hf l1
        subst hp
        obtain ⟨x, rfl⟩ : ∃ x, e' = 58#8 :: x := by
          cases e' with
          | nil => simp at l2
          | cons a x => simp only [List.head?_cons, Option.some.injEq] at l2; exact ⟨x, by rw [l2]⟩
        rcases hq with hq | ⟨g1, g2, g3⟩
        · exact absurd (by simp) hq.2
        simp only [List.nil_append] at hwhole g1 g2 g3 hu ⊢
        have hcurb : (asmAfter syn b).cur = [] := by
          rw [show asmAfter syn b = {} from asmBlanks syn hb {} rfl rfl]
        have g3 := g3 hcurb
        have hp1 : (asmAfter syn (b ++ tk ++ bl)).mode = .code := by
          rw [asmAfter_append]; exact (asm_blanks_code syn hbl _ g1).1
        have hp2 : (asmAfter syn (b ++ tk ++ bl)).cur = tk ++ bl := by
          rw [asmAfter_append, (asm_blanks_code syn hbl _ g1).2, g3, if_neg htk]
        have hcol := hu.colon (b ++ tk ++ bl) x (by rw [hwhole]) hp1
        rw [hp2] at hcol
        have hshape := token_shape htk hr.symm
        have hnq : tk.head? ≠ some 0x22#8 := by
          intro hh
          apply hcol.1 0x22#8 _ rfl
          cases tk with
          | nil => simp at hh
          | cons y z => exact hh
        have htrim : asmTrim (tk ++ bl) = tk := by
          apply trim_word hbl
          intro c hc
          rcases hshape with ⟨h, _⟩ | ⟨h, _⟩ | ⟨d, rfl, _⟩ | ⟨h, _⟩
          · exact absurd h hnq
          · exact absurd h hnq
          · apply hhead; exact hc
          · have := h c (List.mem_of_getLast? hc)
            rcases hbb : isBlank c with _ | _
            · rfl
            · rw [isBlank_iff] at hbb
              rcases hbb with rfl | rfl <;> simp [asmDelim] at this
        have hlb : asmLabel (tk ++ bl) = true := by
          rw [htrim] at hcol
          apply hcol.2 htk
          rcases hshape with ⟨h, _⟩ | ⟨h, _⟩ | ⟨d, rfl, _⟩ | ⟨h, _⟩
          · exact absurd h hnq
          · exact absurd h hnq
          · right; rfl
          · left; exact h
        obtain ⟨f1, f2, f3⟩ := asmView_label syn (b ++ tk ++ bl) x hp1 (by rw [hp2]; exact hlb)
        show asmView syn _ = _ ∧ _
        have htake : e.take (e.length - (58#8 :: x).length + 1) = b ++ tk ++ bl ++ [58#8] := by
          rw [hwhole, List.length_append, Nat.add_sub_cancel]
          rw [show b ++ tk ++ bl ++ 58#8 :: x = (b ++ tk ++ bl ++ [58#8]) ++ x by simp]
          rw [show (b ++ tk ++ bl).length + 1 = (b ++ tk ++ bl ++ [58#8]).length by
            simp only [List.length_append, List.length_singleton]]
          exact List.take_left
        refine ⟨?_, ?_⟩
        · rw [htake]
          conv => lhs; rw [hwhole]
          exact f3
        · apply usual_rest (a := b ++ tk ++ bl ++ [0x3a#8]) _ f1 f2
          rw [show b ++ tk ++ bl ++ [58#8] ++ (58#8 :: x).drop 1 = b ++ tk ++ bl ++ 58#8 :: x by simp, ← hwhole]
          exact hu
      · rw [if_neg hlab]
        have hl : e'.length < e.length := by
          rw [hs, hbr]
          simp only [List.length_append]
          have := List.length_pos_iff.mpr htk
          omega
        have := ih (pre ++ b ++ tk ++ bl) e' false (by omega) (by rw [← hwhole]; exact hu) (by simp) (by
          rcases hq with h | ⟨g1, g2, _⟩
          · exact Or.inl h
          · right
            refine ⟨by rw [asmAfter_append]; exact (asm_blanks_code syn hbl _ g1).1, ?_⟩
            by_cases hb0 : bl = []
            · subst hb0
              rw [List.nil_append] at hbr
              rw [List.append_nil, ← hbr]
              exact g2
            · exact Or.inl (wordStart_blank hbl hb0))
        rw [← hwhole] at this
        exact this

theorem splitStmts_view {syn : AsmSyntax} (hsyn : slashComments = syn.tool) : ∀ (n : Nat) (s : List Byte), s.length ≤ n → UsualLine syn s →
    (splitStmts s).flatMap (fun p => asmView syn p.1) = asmView syn s := by
  intro n
  induction n with
  | zero =>
    intro s hs _
    have : s = [] := List.length_eq_zero_iff.mp (by omega)
    subst this
    rw [splitStmts]
    rfl
  | succ n ih =>
    intro s hs hu
    rw [splitStmts]
    by_cases h0 : s = []
    · subst h0; rfl
    · rw [if_neg h0]
      have hk := scan_view hsyn s.length [] s true (Nat.le_refl _) hu (fun _ => rfl)
        (Or.inr ⟨rfl, Or.inl (by intro c hc; simp at hc)⟩)
      rw [List.nil_append] at hk
      split
      · simp
      · rename_i k h
        rw [h] at hk
        simp only [StmtEnd.Keeps] at hk
        simp [hk]
      · rename_i k r h
        rw [h] at hk
        simp only [StmtEnd.Keeps] at hk
        obtain ⟨e, h1, h2⟩ := scanStmt_rest s (some s) true k r h
        simp only [Option.some.injEq] at h1
        subst h1
        rw [List.flatMap_cons, ih r (by omega) hk.2, ← hk.1]

theorem splitLine_view {syn : AsmSyntax} (hsyn : slashComments = syn.tool) {s : List Byte} (hu : UsualLine syn s) :
    (splitLine s).flatMap (fun p => asmView syn p.1) = asmView syn s := by
  unfold splitLine
  split
  · exact splitStmts_view hsyn _ s (Nat.le_refl _) hu
  · simp

theorem splitLines_view {syn : AsmSyntax} (hsyn : slashComments = syn.tool) : ∀ (lines : List (List Byte)) (i nr sz : Nat) (out : List (List Byte × Nat)),
    (∀ s ∈ lines, UsualLine syn s) → splitLines lines i nr sz = some out →
    out.flatMap (fun p => asmView syn p.1) = lines.flatMap (asmView syn) := by
  intro lines
  induction lines with
  | nil => intro i nr sz out _ h; simp only [splitLines, Option.some.injEq] at h; subst h; rfl
  | cons s rest ih =>
    intro i nr sz out hu h
    unfold splitLines at h
    simp only at h
    generalize (if nr + 1000 ≥ sz ∨ i = 0 then sz * 2 else sz) = sz' at h
    split at h
    · simp at h
    · rw [Option.map_eq_some_iff] at h
      obtain ⟨o, h1, rfl⟩ := h
      rw [List.flatMap_append, List.flatMap_cons, ih _ _ _ _ (fun x hx => hu x (by simp [hx])) h1,
        ← splitLine_view hsyn (hu s (by simp)), List.flatMap_map]

/-- The comments of the assembler of the architecture. -/
def asmSyntax : AsmSyntax :=
  match AsmTarget.isa with
  | .aarch64 => .slashes
  | _ => .hash

/-- C75: the assembler finds the same statements in the split file as in the original, if its lines are written in the
usual style.  Missing: other lines, for which it is false (`C75_violated_…`). -/
theorem C75_same_statements_partial {lines : List (List Byte)} {out : List (List Byte × Nat)}
    (h : initMultilines lines = some out) (hu : ∀ s ∈ lines, UsualLine asmSyntax s) :
    out.flatMap (fun p => asmView asmSyntax p.1) = lines.flatMap (asmView asmSyntax) := by
  refine splitLines_view ?_ lines 0 0 64 out hu h
  unfold slashComments asmSyntax AsmSyntax.tool
  cases AsmTarget.isa <;> rfl

end Target

/-! ### Non-vacuity and violations -/

/-- A check for `UsualLine`. -/
def usualAt (syn : AsmSyntax) (a : List Byte) (c : Byte) (b : List Byte) : Bool :=
  let ws := fun x : List Byte => x.getLast?.all fun c => asmDelim c || c == 0x22#8
  let alone := fun x : List Byte => ws x && b.head?.all asmDelim
  let quiet := !b.contains 0x3b#8 && !b.contains 0x3a#8
  let l := asmAfter syn a
  c != 0x0a#8 && (l.mode != .code ||
    ((c != 0x22#8 || ws a) &&
     (c != 0x23#8 || (asmAfter syn (a ++ [c])).mode != .cmt || quiet || alone a) &&
     (c != 0x2f#8 || (asmAfter syn (a ++ [c])).mode != .cmt || quiet || alone a.dropLast) &&
     (c != 0x3a#8 || (l.cur.head?.all (· != 0x22#8) &&
       (asmTrim l.cur == [] || !((asmTrim l.cur).all (fun c => !asmDelim c) || (asmTrim l.cur).length == 1) || asmLabel l.cur))) &&
     c != 0x27#8 && !(c == 0x2f#8 && b.head? == some 0x2a#8)))

theorem ws_iff (x : List Byte) : (x.getLast?.all fun c => asmDelim c || c == 0x22#8) = true → WordStart x := by
  intro h c hc
  rw [hc] at h
  simpa using h

theorem usual_of_check {syn : AsmSyntax} {line : List Byte}
    (h : ∀ i < line.length, usualAt syn (line.take i) (line.getD i 0) (line.drop (i + 1)) = true) : UsualLine syn line := by
  have key : ∀ a c b, line = a ++ c :: b → usualAt syn a c b = true := by
    intro a c b e
    have := h a.length (by rw [e]; simp)
    rw [e] at this
    simpa [List.getD_eq_getElem?_getD] using this
  have hcode : ∀ a c b, line = a ++ c :: b → (asmAfter syn a).mode = .code → _ := fun a c b e hm => by
    have := key a c b e
    unfold usualAt at this
    simp only [hm] at this
    exact this
  constructor
  · intro hx
    obtain ⟨a, b, e⟩ := List.append_of_mem hx
    have := key a _ b e
    unfold usualAt at this
    simp at this
  · intro a b e hm
    have := hcode a _ b e hm
    apply ws_iff
    simp only [Bool.and_eq_true, Bool.or_eq_true] at this
    grind
  · intro a b e hm hc
    have := hcode a _ b e hm
    simp only [hc] at this
    by_cases hq : Quiet b
    · exact Or.inl hq
    · right
      have hq' : (!b.contains 0x3b#8 && !b.contains 0x3a#8) = false := by
        cases hb : (!b.contains 0x3b#8 && !b.contains 0x3a#8) with
        | false => rfl
        | true =>
          exfalso; apply hq
          simp only [Bool.and_eq_true, Bool.not_eq_true', List.contains_eq_mem, decide_eq_false_iff_not] at hb
          exact hb
      rw [hq'] at this
      have h2 : (a.getLast?.all fun c => asmDelim c || c == 0x22#8) = true ∧ b.head?.all asmDelim = true := by
        simp only [Bool.and_eq_true, Bool.or_eq_true] at this
        grind
      refine ⟨ws_iff a h2.1, fun c hc => ?_⟩
      have := h2.2
      rw [hc] at this
      exact this
  · intro a b e hm hc
    have := hcode (a ++ [0x2f#8]) 0x2f#8 b (by rw [e]; simp) hm
    have hc' : (asmAfter syn (a ++ [0x2f#8] ++ [0x2f#8])).mode = .cmt := by rw [List.append_assoc]; exact hc
    simp only [hc'] at this
    rw [show (a ++ [0x2f#8]).dropLast = a by simp] at this
    by_cases hq : Quiet b
    · exact Or.inl hq
    · right
      have hq' : (!b.contains 0x3b#8 && !b.contains 0x3a#8) = false := by
        cases hb : (!b.contains 0x3b#8 && !b.contains 0x3a#8) with
        | false => rfl
        | true =>
          exfalso; apply hq
          simp only [Bool.and_eq_true, Bool.not_eq_true', List.contains_eq_mem, decide_eq_false_iff_not] at hb
          exact hb
      rw [hq'] at this
      have h2 : (a.getLast?.all fun c => asmDelim c || c == 0x22#8) = true ∧ b.head?.all asmDelim = true := by
        simp only [Bool.and_eq_true, Bool.or_eq_true] at this
        grind
      refine ⟨ws_iff a h2.1, fun c hc => ?_⟩
      have := h2.2
      rw [hc] at this
      exact this
  · intro a b e hm
    have := hcode a _ b e hm
    have h2 : (asmAfter syn a).cur.head?.all (· != 0x22#8) = true ∧
       (asmTrim (asmAfter syn a).cur == [] || !((asmTrim (asmAfter syn a).cur).all (fun c => !asmDelim c) ||
         (asmTrim (asmAfter syn a).cur).length == 1) || asmLabel (asmAfter syn a).cur) = true := by
      simp only [Bool.and_eq_true, Bool.or_eq_true] at this ⊢
      grind
    refine ⟨?_, ?_⟩
    · intro c hc
      have := h2.1
      rw [hc] at this
      simpa using this
    · intro h3 h4
      have := h2.2
      simp only [Bool.or_eq_true, beq_iff_eq, Bool.not_eq_true', Bool.or_eq_false_iff] at this
      rcases this with (h5 | h5) | h5
      · exact absurd h5 h3
      · exfalso
        rcases h4 with h4 | h4
        · have : (asmTrim (asmAfter syn a).cur).all (fun c => !asmDelim c) = true := by
            rw [List.all_eq_true]
            intro c hc
            rw [h4 c hc]; rfl
          rw [this] at h5
          simp at h5
        · rw [h4] at h5
          simp at h5
      · exact h5
  · intro a b e hm
    have := hcode a _ b e hm
    simp at this
  · intro a b e hm
    have := hcode a _ (0x2a#8 :: b) e hm
    simp at this

namespace ExAsm
section X86
attribute [local instance] x86Asm
/-- A line with two labels, a string with a separator in it, an instruction and a comment. -/
def line : List Byte := lit ".L1: 2: .string \"a;b:\\\"c\" ; movl $1, %gs:4(%rax);nop # wait; see: below"
theorem usual : UsualLine asmSyntax line := usual_of_check (by decide +kernel)
/-- The hypotheses of C75 hold here; the line has five statements. -/
example : (splitLine line).flatMap (fun p => asmView .hash p.1) =
    [lit ".L1:", lit "2:", lit ".string \"a;b:\\\"c\"", lit "movl $1, %gs:4(%rax)", lit "nop"] := by decide +kernel
example : (initMultilines [[], line]).isSome = true := by decide +kernel
end X86
section A64
attribute [local instance] a64Asm
/-- A line for AArch64. -/
def lineA : List Byte := lit "1: mov x0, #4; ldr x1, [x0] // wait; see: below"
theorem usualA : UsualLine asmSyntax lineA := usual_of_check (by decide +kernel)
example : (splitLine lineA).flatMap (fun p => asmView .slashes p.1) =
    [lit "1:", lit "mov x0, #4", lit "ldr x1, [x0]"] := by decide +kernel
end A64
end ExAsm

/-- C75 is false for comments written without a blank after `#`: what follows a `;` or a `:` in the comment becomes a
statement. -/
theorem C75_violated_comment :
    letI := x86Asm
    let lines := [lit "nop #was: call f; call g"]
    lines.flatMap (asmView .hash) = [lit "nop"] ∧
    (initMultilines lines).map (·.flatMap fun p => asmView .hash p.1) = some [lit "nop", lit "call g"] := by
  decide +kernel

/-- The same on AArch64 for `//`. -/
theorem C75_violated_comment_aarch64 :
    letI := a64Asm
    let lines := [lit "nop //bl f; bl g"]
    lines.flatMap (asmView .slashes) = [lit "nop"] ∧
    (initMultilines lines).map (·.flatMap fun p => asmView .slashes p.1) = some [lit "nop", lit "bl g"] := by
  decide +kernel

/-- C75 is false for strings directly after a word: a separator in the string ends the statement. -/
theorem C75_violated_string :
    letI := x86Asm
    let lines := [lit ".ascii\"a;b\""]
    lines.flatMap (asmView .hash) = [lit ".ascii\"a;b\""] ∧
    (initMultilines lines).map (·.flatMap fun p => asmView .hash p.1) = some [lit ".ascii\"a", lit "b\""] := by
  decide +kernel

end Verif
