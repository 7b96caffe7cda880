import Verif.Spec.RbTree
/-
Facts about the red-black tree model.
-/
namespace Verif
namespace RbTree
variable {α : Type}

@[simp] theorem isRed_nil : (nil : RbTree α).isRed = false := rfl
@[simp] theorem isRed_black (l : RbTree α) (x : α) (r : RbTree α) : (node .black l x r).isRed = false := rfl
@[simp] theorem isRed_red (l : RbTree α) (x : α) (r : RbTree α) : (node .red l x r).isRed = true := rfl

/-- The nodes left of the hole. -/
def before : List (RbFrame α) → List α
  | [] => []
  | f :: rest => match f.side with
    | .left => before rest
    | .right => before rest ++ f.sib.toList ++ [f.x]

/-- The nodes right of the hole. -/
def after : List (RbFrame α) → List α
  | [] => []
  | f :: rest => match f.side with
    | .left => f.x :: f.sib.toList ++ after rest
    | .right => after rest

theorem toList_unzip (path : List (RbFrame α)) : ∀ t : RbTree α,
    (unzip t path).toList = before path ++ t.toList ++ after path := by
  induction path with
  | nil => intro t; simp [unzip, before, after]
  | cons f rest ih =>
    intro t
    have : unzip t (f :: rest) = unzip (plug t f) rest := rfl
    rw [this, ih]
    unfold plug
    cases hs : f.side <;> simp [before, after, hs, toList]

theorem unzip_append (a b : List (RbFrame α)) (t : RbTree α) : unzip t (a ++ b) = unzip (unzip t a) b := by
  simp [unzip, List.foldl_append]

theorem before_append (a b : List (RbFrame α)) : before (a ++ b) = before b ++ before a := by
  induction a with
  | nil => simp [before]
  | cons f a ih => cases hs : f.side <;> simp [before, hs, ih]

theorem after_append (a b : List (RbFrame α)) : after (a ++ b) = after a ++ after b := by
  induction a with
  | nil => simp [after]
  | cons f a ih => cases hs : f.side <;> simp [after, hs, ih]

@[simp] theorem toList_blacken (t : RbTree α) : t.blacken.toList = t.toList := by
  cases t <;> rfl

/-- The innermost parent, if any, is black; and there is one. -/
def headBlack (path : List (RbFrame α)) : Prop := ∃ f rest, path = f :: rest ∧ f.c = .black

/-- A context in which a subtree of black height `n` is missing. -/
def CtxOk : List (RbFrame α) → Nat → Prop
  | [], _ => True
  | f :: rest, n => f.sib.Balanced n ∧ f.sib.NoRedRed ∧ (f.c = .red → f.sib.isRed = false ∧ headBlack rest) ∧
      CtxOk rest (if f.c = .black then n + 1 else n)

theorem redBlack_unzip (path : List (RbFrame α)) : ∀ (t : RbTree α) (n : Nat), t.Balanced n → t.NoRedRed →
    (t.isRed = true → headBlack path) → CtxOk path n → RedBlack (unzip t path) := by
  induction path with
  | nil =>
    intro t n hb hn hr _
    refine ⟨?_, hn, n, hb⟩
    cases h : t.isRed with
    | false => exact h
    | true => obtain ⟨f, rest, h1, -⟩ := hr h; simp at h1
  | cons f rest ih =>
    intro t n hb hn hr hc
    obtain ⟨c1, c2, c3, c4⟩ := hc
    have : unzip t (f :: rest) = unzip (plug t f) rest := rfl
    rw [this]
    refine ih _ (if f.c = .black then n + 1 else n) ?_ ?_ ?_ c4
    · unfold plug
      cases hs : f.side <;> cases hcol : f.c <;> simp [Balanced, hb, c1]
    · unfold plug
      have hred : f.c = .red → t.isRed = false := by
        intro h
        cases h' : t.isRed with
        | false => rfl
        | true =>
          obtain ⟨g, r, h1, h2⟩ := hr h'
          simp only [List.cons.injEq] at h1
          rw [← h1.1, h] at h2
          exact absurd h2 (by decide)
      cases hs : f.side <;> simp only [NoRedRed] <;> refine ⟨fun h => ?_, ?_⟩
      · exact ⟨hred h, (c3 h).1⟩
      · exact ⟨hn, c2⟩
      · exact ⟨(c3 h).1, hred h⟩
      · exact ⟨c2, hn⟩
    · intro h
      have : f.c = .red := by
        unfold plug at h
        cases hs : f.side <;> rw [hs] at h <;> cases hcol : f.c <;> simp_all [isRed]
      exact (c3 this).2

theorem balanced_blacken_red {t : RbTree α} {n : Nat} (h : t.Balanced n) (hr : t.isRed = true) :
    t.blacken.Balanced (n + 1) := by
  cases t with
  | nil => simp [isRed] at hr
  | node c l x r =>
    cases c
    · exact ⟨n, rfl, h.1, h.2⟩
    · simp [isRed] at hr

theorem blacken_of_not_red {t : RbTree α} (hr : t.isRed = false) : t.blacken = t := by
  cases t with
  | nil => rfl
  | node c l x r => cases c <;> simp_all [isRed, blacken]

theorem noRedRed_blacken {t : RbTree α} (h : t.NoRedRed) : t.blacken.NoRedRed := by
  cases t with
  | nil => trivial
  | node c l x r => exact ⟨by simp, h.2.1, h.2.2⟩

theorem isRed_blacken (t : RbTree α) : t.blacken.isRed = false := by
  cases t <;> rfl

/-- `__rb_insert` never dereferences null, keeps the order of the nodes and restores the invariants. -/
theorem insertFix_spec (path : List (RbFrame α)) (l : RbTree α) (x : α) (r : RbTree α) (n : Nat)
    (hl : l.Balanced n) (hr : r.Balanced n) (hln : l.NoRedRed) (hrn : r.NoRedRed) (hlr : l.isRed = false)
    (hrr : r.isRed = false) (hc : CtxOk path n) :
    ∃ t, insertFix l x r path = some t ∧ RedBlack t ∧
      t.toList = before path ++ (l.toList ++ x :: r.toList) ++ after path := by
  fun_induction insertFix l x r path generalizing n with
  | case1 l x r =>
    refine ⟨_, rfl, ⟨rfl, ⟨by simp, hln, hrn⟩, n + 1, n, rfl, hl, hr⟩, ?_⟩
    simp [toList, before, after]
  | case2 l x r p hp =>
    refine ⟨_, rfl, redBlack_unzip [p] (.node .red l x r) n ⟨hl, hr⟩ ⟨fun _ => ⟨hlr, hrr⟩, hln, hrn⟩
      (fun _ => ⟨p, [], rfl, hp⟩) hc, ?_⟩
    have := toList_unzip [p] (.node .red l x r)
    exact this
  | case3 l x r p hp =>
    exfalso
    obtain ⟨-, -, h3, -⟩ := hc
    have hred : p.c = .red := by cases h : p.c <;> simp_all
    obtain ⟨f, rest, h, -⟩ := (h3 hred).2
    simp at h
  | case4 l x r p g rest hp =>
    refine ⟨_, rfl, redBlack_unzip (p :: g :: rest) (.node .red l x r) n ⟨hl, hr⟩ ⟨fun _ => ⟨hlr, hrr⟩, hln, hrn⟩
      (fun _ => ⟨p, _, rfl, hp⟩) hc, ?_⟩
    exact toList_unzip (p :: g :: rest) (.node .red l x r)
  | case5 l x r p g rest hp hg hs ih =>
    generalize hpt : plug (.node .red l x r) { p with c := .black } = pt at *
    obtain ⟨c1, c2, c3, d1, d2, d3, d4⟩ := hc
    have hred : p.c = .red := by cases h : p.c <;> simp_all
    obtain ⟨hps, f', rest', he, hgb⟩ := c3 hred
    simp only [List.cons.injEq] at he
    rw [← he.1] at hgb
    rw [if_neg hp] at d1 d4
    rw [if_pos hgb] at d4
    have hpt' : pt.Balanced (n + 1) ∧ pt.NoRedRed ∧ pt.isRed = false ∧
        pt.toList = (match p.side with | .left => [] | .right => p.sib.toList ++ [p.x]) ++ (l.toList ++ x :: r.toList) ++
          (match p.side with | .left => p.x :: p.sib.toList | .right => []) := by
      rw [← hpt]
      unfold plug
      cases p.side <;> simp [Balanced, NoRedRed, toList, hl, hr, hln, hrn, hlr, hrr, c1, c2]
    obtain ⟨q1, q2, q3, q4⟩ := hpt'
    obtain ⟨t, ht, h1, h2⟩ := ih (n + 1) q1 (balanced_blacken_red d1 hg) q2 (noRedRed_blacken d2) q3 (isRed_blacken _) d4
    refine ⟨t, ht, h1, ?_⟩
    rw [h2, q4]
    cases hside : p.side <;> simp [before, after, hside, hs]
  | case6 l x r p g rest hp hg hs ih =>
    generalize hpt : plug (.node .red l x r) { p with c := .black } = pt at *
    obtain ⟨c1, c2, c3, d1, d2, d3, d4⟩ := hc
    have hred : p.c = .red := by cases h : p.c <;> simp_all
    obtain ⟨hps, f', rest', he, hgb⟩ := c3 hred
    simp only [List.cons.injEq] at he
    rw [← he.1] at hgb
    rw [if_neg hp] at d1 d4
    rw [if_pos hgb] at d4
    have hpt' : pt.Balanced (n + 1) ∧ pt.NoRedRed ∧ pt.isRed = false ∧
        pt.toList = (match p.side with | .left => [] | .right => p.sib.toList ++ [p.x]) ++ (l.toList ++ x :: r.toList) ++
          (match p.side with | .left => p.x :: p.sib.toList | .right => []) := by
      rw [← hpt]
      unfold plug
      cases p.side <;> simp [Balanced, NoRedRed, toList, hl, hr, hln, hrn, hlr, hrr, c1, c2]
    obtain ⟨q1, q2, q3, q4⟩ := hpt'
    obtain ⟨t, ht, h1, h2⟩ := ih (n + 1) (balanced_blacken_red d1 hg) q1 (noRedRed_blacken d2) q2 (isRed_blacken _) q3 d4
    refine ⟨t, ht, h1, ?_⟩
    rw [h2, q4]
    cases hside : p.side <;> simp [before, after, hside, hs]
  | case7 l x r p g rest hp hg =>
    obtain ⟨c1, c2, c3, d1, d2, d3, d4⟩ := hc
    have hred : p.c = .red := by cases h : p.c <;> simp_all
    obtain ⟨hps, f', rest', he, hgb⟩ := c3 hred
    simp only [List.cons.injEq] at he
    rw [← he.1] at hgb
    rw [if_neg hp] at d1 d4
    rw [if_pos hgb] at d4
    have hg' : g.sib.isRed = false := by simpa using hg
    refine ⟨_, rfl, redBlack_unzip rest _ (n + 1) ?_ ?_ ?_ d4, ?_⟩
    · unfold rotateIns
      cases g.side <;> cases p.side <;>
        simp [Balanced, hgb, blacken_of_not_red hlr, blacken_of_not_red hrr, blacken_of_not_red hps, hl, hr, c1, d1]
    · unfold rotateIns
      cases g.side <;> cases p.side <;>
        simp [NoRedRed, hgb, blacken_of_not_red hlr, blacken_of_not_red hrr, blacken_of_not_red hps, hln, hrn, c2, d2,
          hlr, hrr, hps, hg']
    · unfold rotateIns
      cases g.side <;> cases p.side <;> simp [hgb]
    · rw [toList_unzip]
      unfold rotateIns
      cases h1 : g.side <;> cases h2 : p.side <;> simp [before, after, h1, h2, toList]

theorem balanced_succ {t : RbTree α} {m : Nat} (h : t.Balanced (m + 1)) (hr : t.isRed = false) :
    ∃ l x r, t = .node .black l x r ∧ l.Balanced m ∧ r.Balanced m := by
  cases t with
  | nil => simp [Balanced] at h
  | node c l x r =>
    cases c with
    | red => simp at hr
    | black =>
      obtain ⟨k, h1, h2, h3⟩ := h
      obtain rfl : m = k := by omega
      exact ⟨l, x, r, rfl, h2, h3⟩

theorem red_inv {t : RbTree α} (hr : t.isRed = true) : ∃ l x r, t = .node .red l x r := by
  cases t with
  | nil => simp at hr
  | node c l x r =>
    cases c with
    | red => exact ⟨l, x, r, rfl⟩
    | black => simp at hr

/-- How many black nodes a node of this colour adds. -/
def Color.add (c : Color) (n : Nat) : Nat := if c = .black then n + 1 else n

/-- The nodes of a parent with its two children. -/
def sideList (s : Side) (a : List α) (x : α) (b : List α) : List α :=
  match s with
  | .left => a ++ x :: b
  | .right => b ++ x :: a

theorem eraseCases_spec (s : Side) (n : RbTree α) (pc : Color) (p : α) (sib : RbTree α) (m : Nat)
    (hn : n.Balanced m) (hnn : n.NoRedRed) (hnr : n.isRed = false) (hs : sib.Balanced (m + 1)) (hsn : sib.NoRedRed)
    (hsr : sib.isRed = false) :
    ∃ t b, eraseCases s n pc p sib = some (t, b) ∧ t.NoRedRed ∧ t.toList = sideList s n.toList p sib.toList ∧
      (b = false → t.Balanced (Color.add pc (m + 1)) ∧ (t.isRed = true → pc = .red)) ∧
      (b = true → pc = .black ∧ t.Balanced (m + 1) ∧ t.isRed = false) := by
  obtain ⟨sl, sx, sr, rfl, h1, h2⟩ := balanced_succ hs hsr
  obtain ⟨-, n1, n2⟩ := hsn
  have hred : ∀ {t : RbTree α} {k : Nat}, t.isRed = true → t.Balanced k → t.NoRedRed →
      ∃ a y b, t = .node .red a y b ∧ a.Balanced k ∧ b.Balanced k ∧ a.isRed = false ∧ b.isRed = false ∧
        a.NoRedRed ∧ b.NoRedRed := by
    intro t k hr hb hnn
    obtain ⟨a, y, b, rfl⟩ := red_inv hr
    exact ⟨a, y, b, rfl, hb.1, hb.2, (hnn.1 rfl).1, (hnn.1 rfl).2, hnn.2.1, hnn.2.2⟩
  cases s with
  | left =>
    simp only [eraseCases]
    by_cases hf : sr.isRed = true
    · obtain ⟨a, y, b, rfl, ha, hb, ra, rb, na, nb⟩ := hred hf h2 n2
      refine ⟨_, false, rfl, ?_, ?_, ?_, by simp⟩
      · cases hsl : sl.isRed <;> simp [NoRedRed, hnn, n1, na, nb]
      · simp [toList, sideList]
      · cases pc <;> simp [Balanced, Color.add, hn, h1, ha, hb]
    · have hf' : sr.isRed = false := by simpa using hf
      rw [hf']
      by_cases hg : sl.isRed = true
      · obtain ⟨a, y, b, rfl, ha, hb, ra, rb, na, nb⟩ := hred hg h1 n1
        refine ⟨_, false, rfl, ?_, ?_, ?_, by simp⟩
        · simp [NoRedRed, hnn, n2, na, nb, blacken_of_not_red rb]
        · simp [toList, sideList]
        · cases pc <;> simp [Balanced, Color.add, hn, h2, ha, hb, blacken_of_not_red rb]
      · have hg' : sl.isRed = false := by simpa using hg
        rw [hg']
        cases pc with
        | red =>
          refine ⟨_, false, rfl, ?_, ?_, ?_, by simp⟩
          · simp [NoRedRed, hnn, n1, n2, hf', hg']
          · simp [toList, sideList]
          · simp [Balanced, Color.add, hn, h1, h2]
        | black =>
          refine ⟨_, true, rfl, ?_, ?_, by simp, ?_⟩
          · simp [NoRedRed, hnn, n1, n2, hf', hg']
          · simp [toList, sideList]
          · simp [Balanced, hn, h1, h2]
  | right =>
    simp only [eraseCases]
    by_cases hf : sl.isRed = true
    · obtain ⟨a, y, b, rfl, ha, hb, ra, rb, na, nb⟩ := hred hf h1 n1
      refine ⟨_, false, rfl, ?_, ?_, ?_, by simp⟩
      · simp [NoRedRed, hnn, n2, na, nb]
      · simp [toList, sideList]
      · cases pc <;> simp [Balanced, Color.add, hn, h2, ha, hb]
    · have hf' : sl.isRed = false := by simpa using hf
      rw [hf']
      by_cases hg : sr.isRed = true
      · obtain ⟨a, y, b, rfl, ha, hb, ra, rb, na, nb⟩ := hred hg h2 n2
        refine ⟨_, false, rfl, ?_, ?_, ?_, by simp⟩
        · simp [NoRedRed, hnn, n1, na, nb, blacken_of_not_red ra]
        · simp [toList, sideList]
        · cases pc <;> simp [Balanced, Color.add, hn, h1, ha, hb, blacken_of_not_red ra]
      · have hg' : sr.isRed = false := by simpa using hg
        rw [hg']
        cases pc with
        | red =>
          refine ⟨_, false, rfl, ?_, ?_, ?_, by simp⟩
          · simp [NoRedRed, hnn, n1, n2, hf', hg']
          · simp [toList, sideList]
          · simp [Balanced, Color.add, hn, h1, h2]
        | black =>
          refine ⟨_, true, rfl, ?_, ?_, by simp, ?_⟩
          · simp [NoRedRed, hnn, n1, n2, hf', hg']
          · simp [toList, sideList]
          · simp [Balanced, hn, h1, h2]

theorem toList_plug (t : RbTree α) (f : RbFrame α) : (plug t f).toList = sideList f.side t.toList f.x f.sib.toList := by
  unfold plug sideList
  cases f.side <;> simp [toList]

theorem eraseRound_spec (n : RbTree α) (f : RbFrame α) (rest : List (RbFrame α)) (m : Nat)
    (hn : n.Balanced m) (hnn : n.NoRedRed) (hnr : n.isRed = false) (hc : CtxOk (f :: rest) (m + 1)) :
    ∃ t b, eraseRound n f = some (t, b) ∧ t.NoRedRed ∧ t.toList = (plug n f).toList ∧
      (b = false → t.Balanced (Color.add f.c (m + 1)) ∧ (t.isRed = true → f.c = .red)) ∧
      (b = true → f.c = .black ∧ t.Balanced (m + 1) ∧ t.isRed = false) := by
  obtain ⟨c1, c2, c3, -⟩ := hc
  rw [toList_plug]
  unfold eraseRound
  cases hr : f.sib.isRed with
  | false =>
    obtain ⟨t, b, h1, h2, h3, h4⟩ := eraseCases_spec f.side n f.c f.x f.sib m hn hnn hnr c1 c2 hr
    refine ⟨t, b, ?_, h2, h3, h4⟩
    split
    · rename_i heq
      rw [heq] at hr
      simp at hr
    · exact h1
  | true =>
    obtain ⟨sl, sx, sr, hsib⟩ := red_inv hr
    rw [hsib] at c1 c2 ⊢
    obtain ⟨b1, b2⟩ := c1
    obtain ⟨r0, n1, n2⟩ := c2
    obtain ⟨r1, r2⟩ := r0 rfl
    have hblack : f.c = .black := by
      cases h : f.c with
      | black => rfl
      | red => have := (c3 h).1; rw [hr] at this; simp at this
    dsimp only
    cases hside : f.side with
    | left =>
      dsimp only
      obtain ⟨a, y, b, rfl, -, -⟩ := balanced_succ b1 r1
      dsimp only
      obtain ⟨t, fl, h1, h2, h3, h4, h5⟩ := eraseCases_spec .left n .red f.x (.node .black a y b) m hn hnn hnr b1 n1 r1
      have hfl : fl = false := by
        cases fl with
        | false => rfl
        | true => exact absurd (h5 rfl).1 (by decide)
      rw [h1, hblack]
      refine ⟨_, false, rfl, ⟨by simp, h2, n2⟩, ?_, ?_, by simp⟩
      · simp only [toList, h3, sideList]
        simp
      · intro _
        refine ⟨⟨m + 1, rfl, (h4 hfl).1, b2⟩, by simp⟩
    | right =>
      dsimp only
      obtain ⟨a, y, b, rfl, -, -⟩ := balanced_succ b2 r2
      dsimp only
      obtain ⟨t, fl, h1, h2, h3, h4, h5⟩ := eraseCases_spec .right n .red f.x (.node .black a y b) m hn hnn hnr b2 n2 r2
      have hfl : fl = false := by
        cases fl with
        | false => rfl
        | true => exact absurd (h5 rfl).1 (by decide)
      rw [h1, hblack]
      refine ⟨_, false, rfl, ⟨by simp, n1, h2⟩, ?_, ?_, by simp⟩
      · simp only [toList, h3, sideList]
        simp
      · intro _
        refine ⟨⟨m + 1, rfl, b1, (h4 hfl).1⟩, by simp⟩

theorem eraseFix_spec (path : List (RbFrame α)) : ∀ (n : RbTree α) (m : Nat), n.Balanced m → n.NoRedRed →
    n.isRed = false → CtxOk path (m + 1) →
    ∃ t, eraseFix n path = some t ∧ RedBlack t ∧ t.toList = before path ++ n.toList ++ after path := by
  induction path with
  | nil =>
    intro n m hn hnn hnr _
    exact ⟨n, rfl, ⟨hnr, hnn, m, hn⟩, by simp [before, after]⟩
  | cons f rest ih =>
    intro n m hn hnn hnr hc
    obtain ⟨t, b, h1, h2, h3, h4, h5⟩ := eraseRound_spec n f rest m hn hnn hnr hc
    obtain ⟨c1, c2, c3, c4⟩ := hc
    have hl : before (f :: rest) ++ n.toList ++ after (f :: rest) = before rest ++ t.toList ++ after rest := by
      rw [h3, ← toList_unzip, ← toList_unzip]
      rfl
    rw [hl]
    unfold eraseFix
    rw [h1]
    cases b with
    | true =>
      obtain ⟨k1, k2, k3⟩ := h5 rfl
      dsimp only
      rw [if_pos k1] at c4
      exact ih t (m + 1) k2 h2 k3 c4
    | false =>
      obtain ⟨k1, k2⟩ := h4 rfl
      dsimp only
      refine ⟨_, rfl, redBlack_unzip rest t _ k1 h2 (fun h => (c3 (k2 h)).2) ?_, toList_unzip _ _⟩
      exact c4

/-- What `leftmost` returns: the leftmost node of the subtree, with a path that puts it back. -/
theorem leftmost_spec (l : RbTree α) : ∀ (c : Color) (x : α) (r : RbTree α) (path : List (RbFrame α)),
    let q := leftmost c l x r path
    unzip (.node q.1 .nil q.2.1 q.2.2.1) q.2.2.2 = unzip (.node c l x r) path := by
  induction l with
  | nil => intro c x r path; rfl
  | node c' l' x' r' ihl _ =>
    intro c x r path
    simp only [leftmost]
    exact ihl c' x' r' _

theorem leftmost_path (l : RbTree α) : ∀ (c : Color) (x : α) (r : RbTree α) (path : List (RbFrame α)),
    ∃ inner, leftmost c l x r path = ((leftmost c l x r []).1, (leftmost c l x r []).2.1, (leftmost c l x r []).2.2.1,
      inner ++ path) ∧ (leftmost c l x r []).2.2.2 = inner := by
  induction l with
  | nil => intro c x r path; exact ⟨[], rfl, rfl⟩
  | node c' l' x' r' ihl _ =>
    intro c x r path
    simp only [leftmost]
    obtain ⟨i, h1, h2⟩ := ihl c' x' r' (⟨.left, c, x, r⟩ :: path)
    obtain ⟨j, h3, h4⟩ := ihl c' x' r' [⟨.left, c, x, r⟩]
    refine ⟨i ++ [⟨.left, c, x, r⟩], ?_, ?_⟩
    · rw [h1, h3, List.append_assoc]
      rfl
    · rw [h3, ← h4, h2]

theorem before_leftmost (l : RbTree α) : ∀ (c : Color) (x : α) (r : RbTree α) (path : List (RbFrame α)),
    before (leftmost c l x r path).2.2.2 = before path := by
  induction l with
  | nil => intro c x r path; rfl
  | node c' l' x' r' ihl _ =>
    intro c x r path
    simp only [leftmost]
    rw [ihl]
    rfl

/-- The invariants at the place of the leftmost node. -/
theorem leftmost_ok (l : RbTree α) : ∀ (c : Color) (x : α) (r : RbTree α) (path : List (RbFrame α)) (n : Nat),
    (node c l x r).Balanced n → (node c l x r).NoRedRed → (c = .red → headBlack path) → CtxOk path n →
    let q := leftmost c l x r path
    ∃ k, (node q.1 .nil q.2.1 q.2.2.1).Balanced k ∧ (node q.1 .nil q.2.1 q.2.2.1).NoRedRed ∧
      (q.1 = .red → headBlack q.2.2.2) ∧ CtxOk q.2.2.2 k := by
  induction l with
  | nil => intro c x r path n h1 h2 h3 h4; exact ⟨n, h1, h2, h3, h4⟩
  | node c' l' x' r' ihl _ =>
    intro c x r path n h1 h2 h3 h4
    simp only [leftmost]
    have hch : ∃ m, (node c' l' x' r').Balanced m ∧ r.Balanced m ∧ n = Color.add c m := by
      cases c with
      | red => exact ⟨n, h1.1, h1.2, rfl⟩
      | black => obtain ⟨m, e, a, b⟩ := h1; exact ⟨m, a, b, e⟩
    obtain ⟨m, b1, b2, rfl⟩ := hch
    refine ihl c' x' r' _ m b1 h2.2.1 ?_ ⟨b2, h2.2.2, ?_, ?_⟩
    · rintro rfl
      refine ⟨_, _, rfl, ?_⟩
      cases c with
      | black => rfl
      | red => have := (h2.1 rfl).1; simp at this
    · intro hc
      exact ⟨(h2.1 hc).2, h3 hc⟩
    · exact h4

theorem headBlack_swap {inner : List (RbFrame α)} {s : Side} {c : Color} {x y : α} {sib : RbTree α}
    {path : List (RbFrame α)} (h : headBlack (inner ++ ⟨s, c, x, sib⟩ :: path)) :
    headBlack (inner ++ ⟨s, c, y, sib⟩ :: path) := by
  obtain ⟨g, rest, e, hb⟩ := h
  cases inner with
  | nil =>
    simp only [List.nil_append, List.cons.injEq] at e
    exact ⟨_, _, rfl, by rw [← e.1] at hb; exact hb⟩
  | cons f' inner' =>
    simp only [List.cons_append, List.cons.injEq] at e
    exact ⟨f', _, rfl, by rw [← e.1] at hb; exact hb⟩

theorem ctx_swap {inner : List (RbFrame α)} {s : Side} {c : Color} {x y : α} {sib : RbTree α} {path : List (RbFrame α)}
    {k : Nat} (h : CtxOk (inner ++ ⟨s, c, x, sib⟩ :: path) k) : CtxOk (inner ++ ⟨s, c, y, sib⟩ :: path) k := by
  induction inner generalizing k with
  | nil => exact h
  | cons f inner ih =>
    obtain ⟨h1, h2, h3, h4⟩ := h
    exact ⟨h1, h2, fun hr => ⟨(h3 hr).1, headBlack_swap (h3 hr).2⟩, ih h4⟩

/-- Removing a node with no left child: its right child takes its place. -/
theorem removeTop_spec (c : Color) (x : α) (r : RbTree α) (path : List (RbFrame α)) (n : Nat)
    (hb : (node c .nil x r).Balanced n) (hn : (node c .nil x r).NoRedRed) (hh : c = .red → headBlack path)
    (hc : CtxOk path n) :
    (∃ a y b, r = .node .red a y b ∧ c = .black ∧ a.Balanced 0 ∧ b.Balanced 0 ∧ a.isRed = false ∧ b.isRed = false ∧
      a.NoRedRed ∧ b.NoRedRed ∧ n = 1) ∨
    (r = .nil ∧ n = Color.add c 0) := by
  cases c with
  | red =>
    obtain ⟨h1, h2⟩ := hb
    simp only [Balanced] at h1
    subst h1
    right
    refine ⟨?_, rfl⟩
    cases r with
    | nil => rfl
    | node c' a y b =>
      cases c' with
      | red => have := (hn.1 rfl).2; simp at this
      | black => obtain ⟨m, e, -⟩ := h2; omega
  | black =>
    obtain ⟨m, e, h1, h2⟩ := hb
    simp only [Balanced] at h1
    subst h1
    cases r with
    | nil => right; exact ⟨rfl, e⟩
    | node c' a y b =>
      cases c' with
      | black => obtain ⟨m, e, -⟩ := h2; omega
      | red =>
        left
        obtain ⟨-, -, h3⟩ := hn
        exact ⟨a, y, b, rfl, rfl, h2.1, h2.2, (h3.1 rfl).1, (h3.1 rfl).2, h3.2.1, h3.2.2, e⟩

/-- `rb_erase` of a node in its place. -/
theorem eraseAt_spec (c : Color) (l : RbTree α) (x : α) (r : RbTree α) (path : List (RbFrame α)) (n : Nat)
    (hb : (node c l x r).Balanced n) (hn : (node c l x r).NoRedRed) (hh : c = .red → headBlack path)
    (hc : CtxOk path n) :
    ∃ t, eraseAt c l r path = some t ∧ RedBlack t ∧
      t.toList = before path ++ (l.toList ++ r.toList) ++ after path := by
  cases l with
  | nil =>
    rcases removeTop_spec c x r path n hb hn hh hc with ⟨a, y, b, rfl, rfl, ha, hb', ra, rb, na, nb, rfl⟩ | ⟨rfl, rfl⟩
    · refine ⟨_, rfl, redBlack_unzip path _ 1 ⟨0, rfl, ha, hb'⟩ ⟨by simp, na, nb⟩ (by simp) hc, ?_⟩
      rw [toList_unzip]
      simp [toList]
    · cases c with
      | red =>
        refine ⟨_, rfl, redBlack_unzip path _ 0 rfl trivial (by simp) hc, ?_⟩
        rw [toList_unzip]
        simp [toList]
      | black =>
        obtain ⟨t, h1, h2, h3⟩ := eraseFix_spec path .nil 0 rfl trivial rfl hc
        refine ⟨t, by simpa [eraseAt] using h1, h2, ?_⟩
        rw [h3]
        simp [toList]
  | node lc ll lx lr =>
    cases r with
    | nil =>
      -- symmetric to a single right child
      have : ∃ a y b, (node lc ll lx lr : RbTree α) = .node .red a y b ∧ c = .black ∧ a.Balanced 0 ∧ b.Balanced 0 ∧
          a.NoRedRed ∧ b.NoRedRed ∧ n = 1 := by
        cases c with
        | red =>
          obtain ⟨h1, h2⟩ := hb
          simp only [Balanced] at h2
          subst h2
          cases lc with
          | red => have := (hn.1 rfl).1; simp at this
          | black => obtain ⟨m, e, -⟩ := h1; omega
        | black =>
          obtain ⟨m, e, h1, h2⟩ := hb
          simp only [Balanced] at h2
          subst h2
          cases lc with
          | black => obtain ⟨m, e, -⟩ := h1; omega
          | red => exact ⟨ll, lx, lr, rfl, rfl, h1.1, h1.2, hn.2.1.2.1, hn.2.1.2.2, e⟩
      obtain ⟨a, y, b, he, rfl, ha, hb', na, nb, rfl⟩ := this
      simp only [node.injEq] at he
      obtain ⟨rfl, rfl, rfl, rfl⟩ := he
      refine ⟨_, rfl, redBlack_unzip path _ 1 ⟨0, rfl, ha, hb'⟩ ⟨by simp, na, nb⟩ (by simp) hc, ?_⟩
      rw [toList_unzip]
      simp [toList]
    | node rc rl rx rr =>
      have hch : ∃ m, (node lc ll lx lr).Balanced m ∧ (node rc rl rx rr).Balanced m ∧ n = Color.add c m := by
        cases c with
        | red => exact ⟨n, hb.1, hb.2, rfl⟩
        | black => obtain ⟨m, e, a, b⟩ := hb; exact ⟨m, a, b, e⟩
      obtain ⟨m, b1, b2, rfl⟩ := hch
      obtain ⟨hn0, hn1, hn2⟩ := hn
      have hctx : CtxOk (⟨.right, c, x, .node lc ll lx lr⟩ :: path) m :=
        ⟨b1, hn1, fun h => ⟨(hn0 h).1, hh h⟩, hc⟩
      have hhead : rc = .red → headBlack (⟨.right, c, x, .node lc ll lx lr⟩ :: path) := by
        rintro rfl
        refine ⟨_, _, rfl, ?_⟩
        cases c with
        | black => rfl
        | red => have := (hn0 rfl).2; simp at this
      obtain ⟨k, k1, k2, k3, k4⟩ := leftmost_ok rl rc rx rr _ m b2 hn2 hhead hctx
      obtain ⟨inner, i1, i2⟩ := leftmost_path rl rc rx rr (⟨.right, c, x, .node lc ll lx lr⟩ :: path)
      have hlist := leftmost_spec rl rc rx rr []
      have hbef := before_leftmost rl rc rx rr []
      rw [i1] at k1 k2 k3 k4
      dsimp only at k1 k2 k3 k4 hlist
      simp only [eraseAt]
      generalize hq : leftmost rc rl rx rr [] = q at *
      obtain ⟨sc, s, child2, inn⟩ := q
      dsimp only at k1 k2 k3 k4 hlist hbef i2 ⊢
      subst i2
      have k4' := ctx_swap (y := s) k4
      have k3' : sc = .red → headBlack (inn ++ ⟨.right, c, s, .node lc ll lx lr⟩ :: path) := fun h => headBlack_swap (k3 h)
      have hl2 : (node rc rl rx rr).toList = s :: (child2.toList ++ after inn) := by
        have := congrArg toList hlist
        rw [toList_unzip, toList_unzip] at this
        rw [hbef] at this
        simp only [before, after, List.nil_append, List.append_nil, toList] at this
        simpa [toList] using this.symm
      have hfin : ∀ t0 : List α, t0 = child2.toList →
          before (inn ++ ⟨.right, c, s, .node lc ll lx lr⟩ :: path) ++ t0 ++
            after (inn ++ ⟨.right, c, s, .node lc ll lx lr⟩ :: path) =
          before path ++ ((node lc ll lx lr).toList ++ (node rc rl rx rr).toList) ++ after path := by
        rintro t0 rfl
        rw [before_append, after_append, hl2, hbef]
        simp [before, after]
      rcases removeTop_spec sc s child2 _ k k1 k2 k3' k4' with
        ⟨a, y, b, rfl, rfl, ha, hb', ra, rb, na, nb, rfl⟩ | ⟨rfl, rfl⟩
      · refine ⟨_, rfl, redBlack_unzip _ _ 1 ⟨0, rfl, ha, hb'⟩ ⟨by simp, na, nb⟩ (by simp) k4', ?_⟩
        rw [toList_unzip]
        exact hfin _ rfl
      · cases sc with
        | red =>
          refine ⟨_, rfl, redBlack_unzip _ _ 0 rfl trivial (by simp) k4', ?_⟩
          rw [toList_unzip]
          exact hfin _ rfl
        | black =>
          obtain ⟨t, h1, h2, h3⟩ := eraseFix_spec _ .nil 0 rfl trivial rfl k4'
          refine ⟨t, by simpa using h1, h2, ?_⟩
          rw [h3]
          exact hfin _ rfl

end RbTree
end Verif
