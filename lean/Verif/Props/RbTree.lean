import Verif.Proof.RbTree
import Mathlib.Tactic.Tauto
import Mathlib.Data.List.Nodup
/-
C37, C38: the ordered tree is a finite map and stays balanced.
-/
namespace Verif
namespace RbTree
variable {α κ : Type}

/-- Keys increase from left to right. -/
def Sorted [LinearOrder κ] (key : α → κ) (l : List α) : Prop := l.Pairwise fun x y => key x < key y

theorem search_spec [LinearOrder κ] {key : α → κ} {cmp : α → κ → Int} (hc : CmpOk key cmp) (k : κ) :
    ∀ (t : RbTree α), Sorted key t.toList → ∀ x, t.search (cmp · k) = some x ↔ x ∈ t.toList ∧ key x = k := by
  intro t
  induction t with
  | nil => intro _ x; simp [search, toList]
  | node c l y r ihl ihr =>
    intro hs x
    unfold Sorted at hs
    simp only [toList, List.pairwise_append, List.pairwise_cons] at hs
    obtain ⟨h1, ⟨h2, h3⟩, h4⟩ := hs
    have hl : ∀ z ∈ l.toList, key z < key y := fun z hz => h4 z hz y (by simp)
    obtain ⟨e1, e2⟩ := hc y k
    unfold search
    split
    · rename_i h
      rw [ihl h1 x]
      have := e1.mp h
      simp only [toList, List.mem_append, List.mem_cons]
      constructor
      · rintro ⟨a, b⟩; exact ⟨Or.inl a, b⟩
      · rintro ⟨a | rfl | a, b⟩
        · exact ⟨a, b⟩
        · exact absurd b (ne_of_gt this)
        · exact absurd b (ne_of_gt (lt_trans this (h2 x a)))
    · split
      · rename_i h
        rw [ihr h3 x]
        have := e2.mp h
        simp only [toList, List.mem_append, List.mem_cons]
        constructor
        · rintro ⟨a, b⟩; exact ⟨Or.inr (Or.inr a), b⟩
        · rintro ⟨a | rfl | a, b⟩
          · exact absurd b (ne_of_lt (lt_trans (hl x a) this))
          · exact absurd b (ne_of_lt this)
          · exact ⟨a, b⟩
      · rename_i h h'
        have hk : key y = k := by
          rcases lt_trichotomy (key y) k with q | q | q
          · exact absurd (e2.mpr q) h'
          · exact q
          · exact absurd (e1.mpr q) h
        simp only [toList, List.mem_append, List.mem_cons, Option.some.injEq]
        constructor
        · rintro rfl; exact ⟨Or.inr (Or.inl rfl), hk⟩
        · rintro ⟨a | rfl | a, b⟩
          · exact absurd (b.trans hk.symm) (ne_of_lt (hl x a))
          · rfl
          · exact absurd (hk.trans b.symm) (ne_of_lt (h2 x a))

/-- The descent to the place of a new node. -/
theorem descend_spec [LinearOrder κ] {key : α → κ} {cmp : α → κ → Int} (hc : CmpOk key cmp) (k : κ) :
    ∀ (t : RbTree α) (path : List (RbFrame α)) (n : Nat), t.Balanced n → t.NoRedRed →
      (t.isRed = true → headBlack path) → CtxOk path n → Sorted key t.toList →
      (∀ y ∈ before path, key y < k) → (∀ y ∈ after path, k < key y) →
      match descend (cmp · k) t path with
      | .inr y => y ∈ t.toList ∧ key y = k
      | .inl path' => before path ++ t.toList ++ after path = before path' ++ after path' ∧ CtxOk path' 0 ∧
          (∀ y ∈ before path', key y < k) ∧ (∀ y ∈ after path', k < key y) := by
  intro t
  induction t with
  | nil =>
    intro path n hb _ _ hctx _ h1 h2
    simp only [Balanced] at hb
    subst hb
    simp only [descend]
    exact ⟨by simp [toList], hctx, h1, h2⟩
  | node c l x r ihl ihr =>
    intro path n hb hn hh hctx hs h1 h2
    unfold Sorted at hs
    simp only [toList, List.pairwise_append, List.pairwise_cons] at hs
    obtain ⟨s1, ⟨s2, s3⟩, s4⟩ := hs
    have hl : ∀ z ∈ l.toList, key z < key x := fun z hz => s4 z hz x (by simp)
    have hch : ∃ m, l.Balanced m ∧ r.Balanced m ∧ n = Color.add c m := by
      cases c with
      | red => exact ⟨n, hb.1, hb.2, rfl⟩
      | black => obtain ⟨m, e, a, b⟩ := hb; exact ⟨m, a, b, e⟩
    obtain ⟨m, b1, b2, rfl⟩ := hch
    obtain ⟨n0, n1, n2⟩ := hn
    have hhc : c = .red → headBlack path := fun h => hh (by rw [h]; rfl)
    have hhead : ∀ (u : RbTree α) (f : RbFrame α), f.c = c → (c = .red → u.isRed = false) → u.isRed = true →
        headBlack (f :: path) := by
      intro u f hf hu hr
      refine ⟨_, _, rfl, ?_⟩
      rw [hf]
      cases c with
      | black => rfl
      | red => rw [hu rfl] at hr; simp at hr
    obtain ⟨e1, e2⟩ := hc x k
    by_cases h : cmp x k < 0
    · have hd : descend (cmp · k) (node c l x r) path = descend (cmp · k) l (⟨.left, c, x, r⟩ :: path) := by
        simp [descend, h]
      rw [hd]
      have hk := e1.mp h
      have := ihl (⟨.left, c, x, r⟩ :: path) m b1 n1 (hhead l _ rfl fun h => (n0 h).1)
        ⟨b2, n2, fun h => ⟨(n0 h).2, hhc h⟩, hctx⟩ s1 (by simpa [before] using h1)
        (by
          intro y hy
          simp only [after, List.cons_append, List.mem_cons, List.mem_append] at hy
          rcases hy with rfl | hy | hy
          · exact hk
          · exact lt_trans hk (s2 y hy)
          · exact h2 y hy)
      split at this
      · exact ⟨by simp [toList, this.1], this.2⟩
      · obtain ⟨t1, t2, t3, t4⟩ := this
        exact ⟨by rw [← t1]; simp [before, after, toList], t2, t3, t4⟩
    · by_cases h' : cmp x k > 0
      · have hd : descend (cmp · k) (node c l x r) path = descend (cmp · k) r (⟨.right, c, x, l⟩ :: path) := by
          simp only [descend, h, h', if_true, if_false]
        rw [hd]
        have hk := e2.mp h'
        have := ihr (⟨.right, c, x, l⟩ :: path) m b2 n2 (hhead r _ rfl fun h => (n0 h).2)
          ⟨b1, n1, fun h => ⟨(n0 h).1, hhc h⟩, hctx⟩ s3
          (by
            intro y hy
            simp only [before, List.mem_append, List.mem_singleton] at hy
            rcases hy with (hy | hy) | rfl
            · exact h1 y hy
            · exact lt_trans (hl y hy) hk
            · exact hk) (by simpa [after] using h2)
        split at this
        · exact ⟨by simp [toList, this.1], this.2⟩
        · obtain ⟨t1, t2, t3, t4⟩ := this
          exact ⟨by rw [← t1]; simp [before, after, toList], t2, t3, t4⟩
      · have hd : descend (cmp · k) (node c l x r) path = .inr x := by
          simp only [descend, h, h', if_false]
        rw [hd]
        refine ⟨by simp [toList], ?_⟩
        rcases lt_trichotomy (key x) k with q | q | q
        · exact absurd (e2.mpr q) h'
        · exact q
        · exact absurd (e1.mpr q) h

/-- The place of a node of the tree. -/
theorem locate_spec [DecidableEq α] (y : α) : ∀ (t : RbTree α) (path : List (RbFrame α)) (n : Nat), t.Balanced n →
    t.NoRedRed → (t.isRed = true → headBlack path) → CtxOk path n →
    match locate y t path with
    | none => y ∉ t.toList
    | some (c, l, r, path') => unzip (.node c l y r) path' = unzip t path ∧
        ∃ m, (node c l y r).Balanced m ∧ (node c l y r).NoRedRed ∧ (c = .red → headBlack path') ∧ CtxOk path' m := by
  intro t
  induction t with
  | nil => intro path n _ _ _ _; simp [locate, toList]
  | node c l x r ihl ihr =>
    intro path n hb hn hh hctx
    have hhc : c = .red → headBlack path := fun h => hh (by rw [h]; rfl)
    by_cases hne : x = y
    · subst hne
      rw [show locate x (node c l x r) path = some (c, l, r, path) by simp [locate]]
      exact ⟨rfl, n, hb, hn, hhc, hctx⟩
    · have hch : ∃ m, l.Balanced m ∧ r.Balanced m ∧ n = Color.add c m := by
        cases c with
        | red => exact ⟨n, hb.1, hb.2, rfl⟩
        | black => obtain ⟨m, e, a, b⟩ := hb; exact ⟨m, a, b, e⟩
      obtain ⟨m, b1, b2, rfl⟩ := hch
      obtain ⟨n0, n1, n2⟩ := hn
      have hhead : ∀ (u : RbTree α) (f : RbFrame α), f.c = c → (c = .red → u.isRed = false) → u.isRed = true →
          headBlack (f :: path) := by
        intro u f hf hu hr
        refine ⟨_, _, rfl, ?_⟩
        rw [hf]
        cases c with
        | black => rfl
        | red => rw [hu rfl] at hr; simp at hr
      have il := ihl (⟨.left, c, x, r⟩ :: path) m b1 n1 (hhead l _ rfl fun h => (n0 h).1)
        ⟨b2, n2, fun h => ⟨(n0 h).2, hhc h⟩, hctx⟩
      have ir := ihr (⟨.right, c, x, l⟩ :: path) m b2 n2 (hhead r _ rfl fun h => (n0 h).2)
        ⟨b1, n1, fun h => ⟨(n0 h).1, hhc h⟩, hctx⟩
      cases h1 : locate y l (⟨.left, c, x, r⟩ :: path) with
      | some p =>
        rw [h1] at il
        have he : locate y (node c l x r) path = some p := by simp [locate, hne, h1]
        rw [he]
        exact il
      | none =>
        rw [h1] at il
        dsimp only at il
        cases h2 : locate y r (⟨.right, c, x, l⟩ :: path) with
        | some p =>
          rw [h2] at ir
          have he : locate y (node c l x r) path = some p := by simp [locate, hne, h1, h2]
          rw [he]
          exact ir
        | none =>
          rw [h2] at ir
          dsimp only at ir
          have he : locate y (node c l x r) path = none := by simp [locate, hne, h1, h2]
          rw [he]
          simp only [toList, List.mem_append, List.mem_cons, not_or]
          exact ⟨il, Ne.symm hne, ir⟩

/-! ### Iteration -/

theorem climb_spec (path : List (RbFrame α)) : ∀ t : RbTree α,
    match climb t path with
    | none => after path = []
    | some (_, _, x, r, path') => after path = x :: (r.toList ++ after path') := by
  induction path with
  | nil => intro t; simp [climb, after]
  | cons f rest ih =>
    intro t
    unfold climb
    cases hs : f.side with
    | left => simp [after, hs]
    | right => simpa [after, hs] using ih (plug t f)

theorem after_leftmost (l : RbTree α) : ∀ (c : Color) (x : α) (r : RbTree α) (path : List (RbFrame α)),
    (leftmost c l x r path).2.1 :: ((leftmost c l x r path).2.2.1.toList ++ after (leftmost c l x r path).2.2.2) =
      (node c l x r).toList ++ after path := by
  induction l with
  | nil => intro c x r path; simp [leftmost, toList]
  | node c' l' x' r' ihl _ =>
    intro c x r path
    simp only [leftmost]
    rw [ihl]
    simp [after, toList]

theorem next_spec (c : Color) (l : RbTree α) (x : α) (r : RbTree α) (path : List (RbFrame α)) :
    match next c l x r path with
    | none => r.toList ++ after path = []
    | some (_, _, x', r', path') => r.toList ++ after path = x' :: (r'.toList ++ after path') := by
  cases r with
  | nil =>
    simp only [next]
    simpa [toList] using climb_spec path (.node c l x .nil)
  | node rc rl rx rr =>
    simp only [next]
    rw [after_leftmost]
    simp [after]

theorem walk_spec : ∀ (fuel : Nat) (q : Option (RbTree α × Color × α × RbTree α × List (RbFrame α))) (rest : List α),
    (match q with
      | none => rest = []
      | some (_, _, x, r, path) => rest = x :: (r.toList ++ after path)) →
    rest.length ≤ fuel → walk fuel q = rest := by
  intro fuel
  induction fuel with
  | zero =>
    intro q rest h hl
    simp only [Nat.le_zero_eq, List.length_eq_zero_iff] at hl
    subst hl
    simp [walk]
  | succ fuel ih =>
    intro q rest h hl
    match q, h with
    | none, h => simp only at h; simp [walk, h]
    | some (l, c, x, r, path), h =>
      simp only at h
      subst h
      simp only [walk, List.cons.injEq, true_and]
      refine ih _ _ ?_ (by simp at hl; simp; omega)
      have := next_spec c l x r path
      split <;> rename_i heq <;> rw [heq] at this <;> exact this

theorem iterate_spec (t : RbTree α) (fuel : Nat) (h : t.toList.length ≤ fuel) : t.iterate fuel = t.toList := by
  unfold iterate
  refine walk_spec _ _ _ ?_ h
  cases t with
  | nil => simp [first, toList]
  | node c l x r =>
    simp only [first, Option.map_some]
    rw [after_leftmost]
    simp [after]

/-! ### Height -/

theorem height_le (t : RbTree α) : ∀ n, t.Balanced n → t.NoRedRed →
    t.height ≤ 2 * n + (if t.isRed then 1 else 0) ∧ 2 ^ n ≤ t.toList.length + 1 := by
  induction t with
  | nil => intro n h _; simp only [Balanced] at h; subst h; simp [height, toList]
  | node c l x r ihl ihr =>
    intro n hb hn
    obtain ⟨n0, n1, n2⟩ := hn
    cases c with
    | red =>
      obtain ⟨l1, l2⟩ := ihl n hb.1 n1
      obtain ⟨r1, r2⟩ := ihr n hb.2 n2
      rw [(n0 rfl).1] at l1
      rw [(n0 rfl).2] at r1
      simp only [height, isRed_red, if_true, toList, List.length_append, List.length_cons]
      simp only [Bool.false_eq_true, if_false] at l1 r1
      omega
    | black =>
      obtain ⟨m, rfl, b1, b2⟩ := hb
      obtain ⟨l1, l2⟩ := ihl m b1 n1
      obtain ⟨r1, r2⟩ := ihr m b2 n2
      simp only [height, isRed_black, Bool.false_eq_true, if_false, toList, List.length_append, List.length_cons]
      rw [Nat.pow_succ]
      split at l1 <;> split at r1 <;> omega

theorem height_log (t : RbTree α) (h : RedBlack t) : t.height ≤ 2 * Nat.log 2 (t.toList.length + 1) := by
  obtain ⟨h1, h2, n, h3⟩ := h
  obtain ⟨a, b⟩ := height_le t n h3 h2
  rw [h1] at a
  simp only [Bool.false_eq_true, if_false] at a
  have := Nat.le_log_of_pow_le (by omega) b
  omega

end RbTree

open RbTree

/-- The tree represents the stored nodes. -/
structure RbRep {α κ : Type} [LinearOrder κ] (key : α → κ) (t : RbTree α) (live : List α) : Prop where
  rb : RedBlack t
  sorted : Sorted key t.toList
  mem : ∀ x, x ∈ t.toList ↔ x ∈ live

theorem rbRep_step {α κ : Type} [DecidableEq α] [LinearOrder κ] {key : α → κ} {cmp : α → κ → Int} (hc : CmpOk key cmp)
    {t : RbTree α} {live : List α} (h : RbRep key t live) (op : RbOp α κ) (hl : op.Legal key live) :
    ∃ t', op.run cmp t = some t' ∧ RbRep key t' (op.spec key live) := by
  obtain ⟨⟨rb1, rb2, n, rb3⟩, hs, hm⟩ := h
  cases op with
  | insert x k =>
    obtain ⟨hk, hx⟩ := hl
    have hd := descend_spec hc k t [] n rb3 rb2 (by rw [rb1]; simp) trivial hs (by simp [before]) (by simp [after])
    simp only [RbOp.run, RbTree.insert, RbOp.spec]
    cases he : descend (cmp · k) t [] with
    | inr y =>
      rw [he] at hd
      obtain ⟨d1, d2⟩ := hd
      refine ⟨t, rfl, ⟨⟨rb1, rb2, n, rb3⟩, hs, fun z => ?_⟩⟩
      rw [if_pos]
      · exact hm z
      · simp only [List.any_eq_true, decide_eq_true_eq]
        exact ⟨y, (hm y).mp d1, d2⟩
    | inl path =>
      rw [he] at hd
      obtain ⟨d1, d2, d3, d4⟩ := hd
      obtain ⟨t', e1, e2, e3⟩ := insertFix_spec path .nil x .nil 0 rfl rfl trivial trivial rfl rfl d2
      simp only [before, after, List.nil_append, List.append_nil] at d1
      simp only [toList, List.nil_append] at e3
      refine ⟨t', by simp [e1], ⟨e2, ?_, fun z => ?_⟩⟩
      · rw [e3]
        unfold Sorted at hs ⊢
        rw [d1, List.pairwise_append] at hs
        obtain ⟨p1, p2, p3⟩ := hs
        rw [List.append_assoc, List.pairwise_append]
        refine ⟨p1, ?_, ?_⟩
        · simp only [List.cons_append, List.nil_append, List.pairwise_cons]
          exact ⟨fun y hy => by rw [hk]; exact d4 y hy, p2⟩
        · intro a ha b hb
          simp only [List.cons_append, List.nil_append, List.mem_cons] at hb
          rcases hb with rfl | hb
          · rw [hk]; exact d3 a ha
          · exact p3 a ha b hb
      · rw [if_neg]
        · rw [e3, List.mem_cons, ← hm z, d1]
          simp only [List.mem_append, List.mem_singleton]
          tauto
        · simp only [List.any_eq_true, decide_eq_true_eq, not_exists, not_and]
          intro y hy hyk
          rw [← hm y, d1, List.mem_append] at hy
          rcases hy with hy | hy
          · exact absurd hyk (ne_of_lt (d3 y hy))
          · exact absurd hyk (ne_of_gt (d4 y hy))
  | erase x =>
    have hx : x ∈ t.toList := (hm x).mpr hl
    have hloc := locate_spec x t [] n rb3 rb2 (by rw [rb1]; simp) trivial
    simp only [RbOp.run, RbTree.erase, RbOp.spec]
    cases he : locate x t [] with
    | none => rw [he] at hloc; exact absurd hx hloc
    | some p =>
      obtain ⟨c, l, r, path⟩ := p
      rw [he] at hloc
      obtain ⟨l1, m, m1, m2, m3, m4⟩ := hloc
      obtain ⟨t', e1, e2, e3⟩ := eraseAt_spec c l x r path m m1 m2 m3 m4
      have hlist : t.toList = before path ++ (l.toList ++ x :: r.toList) ++ after path := by
        have := congrArg toList l1
        rw [toList_unzip] at this
        exact this.symm
      unfold Sorted at hs
      have hsub : t'.toList.Sublist t.toList := by
        rw [e3, hlist]
        refine List.Sublist.append_right (List.Sublist.append_left ?_ _) _
        exact List.Sublist.append_left (List.sublist_cons_self ..) _
      refine ⟨t', e1, ⟨e2, hs.sublist hsub, fun z => ?_⟩⟩
      rw [List.mem_filter, ← hm z]
      have hz : x ∉ t'.toList := by
        rw [e3]
        rw [hlist] at hs
        simp only [List.pairwise_append, List.pairwise_cons, List.mem_append, List.mem_cons] at hs
        simp only [List.mem_append, not_or]
        refine ⟨⟨fun h => ?_, fun h => ?_, fun h => ?_⟩, fun h => ?_⟩
        · exact lt_irrefl _ (hs.1.2.2 x h x (Or.inr (Or.inl rfl)))
        · exact lt_irrefl _ (hs.1.2.1.2.2 x h x (Or.inl rfl))
        · exact lt_irrefl _ (hs.1.2.1.2.1.1 x h)
        · exact lt_irrefl _ (hs.2.2 x (Or.inr (Or.inr (Or.inl rfl))) x h)
      constructor
      · intro h
        refine ⟨hsub.subset h, ?_⟩
        simp only [ne_eq, decide_not, Bool.not_eq_eq_eq_not, Bool.not_true, decide_eq_false_iff_not]
        rintro rfl
        exact hz h
      · rintro ⟨h, hne⟩
        simp only [ne_eq, decide_not, Bool.not_eq_eq_eq_not, Bool.not_true, decide_eq_false_iff_not] at hne
        rw [hlist] at h
        rw [e3]
        simp only [List.mem_append, List.mem_cons] at h ⊢
        tauto

theorem rbRep_run {α κ : Type} [DecidableEq α] [LinearOrder κ] {key : α → κ} {cmp : α → κ → Int} (hc : CmpOk key cmp) :
    ∀ (ops : List (RbOp α κ)) (t : RbTree α) (live : List α), RbRep key t live → RbLegal key live ops →
      ∃ t', runRb cmp t ops = some t' ∧ RbRep key t' (ops.foldl (RbOp.spec key) live) := by
  intro ops
  induction ops with
  | nil => intro t live h _; exact ⟨t, rfl, h⟩
  | cons o os ih =>
    intro t live h hl
    obtain ⟨t', h1, h2⟩ := rbRep_step hc h o hl.1
    obtain ⟨t'', h3, h4⟩ := ih t' _ h2 hl.2
    exact ⟨t'', by simp [runRb, h1, h3], h4⟩

theorem spec_nodup {α κ : Type} [DecidableEq α] [LinearOrder κ] {key : α → κ} :
    ∀ (ops : List (RbOp α κ)) (live : List α), (live.map key).Nodup → RbLegal key live ops →
      ((ops.foldl (RbOp.spec key) live).map key).Nodup := by
  intro ops
  induction ops with
  | nil => intro live h _; exact h
  | cons o os ih =>
    intro live h hl
    refine ih _ ?_ hl.2
    cases o with
    | insert x k =>
      simp only [RbOp.spec]
      split
      · exact h
      · rename_i hk
        simp only [List.any_eq_true, decide_eq_true_eq, not_exists, not_and] at hk
        rw [List.map_cons, List.nodup_cons]
        refine ⟨?_, h⟩
        simp only [List.mem_map, not_exists, not_and]
        intro y hy
        rw [hl.1.1]
        exact hk y hy
    | erase x => exact h.sublist (List.Sublist.map _ (List.filter_sublist ..))

/-- C37.  After every legal history of insertions and removals, starting from the empty tree:
* no operation dereferenced a null pointer;
* a search for a key returns the stored node with this key, nothing when there is none;
* the iteration with `rb_first` and `rb_next` visits exactly the stored nodes, each once, in increasing order of
  their keys.
The stored nodes are given by the specification `RbOp.spec`: an insertion under a key that is present does nothing. -/
theorem C37_finite_map {α κ : Type} [DecidableEq α] [LinearOrder κ] (key : α → κ) (cmp : α → κ → Int)
    (hc : CmpOk key cmp) (ops : List (RbOp α κ)) (hl : RbLegal key [] ops) :
    let live := ops.foldl (RbOp.spec key) []
    ∃ t, runRb cmp .nil ops = some t ∧
      (∀ k, t.search (cmp · k) = live.find? fun x => key x = k) ∧
      (∀ fuel, live.length ≤ fuel →
        (t.iterate fuel).Perm live ∧ (t.iterate fuel).Pairwise fun x y => key x < key y) := by
  intro live
  obtain ⟨t, h1, h2⟩ := rbRep_run hc ops .nil [] ⟨⟨rfl, trivial, 0, rfl⟩, List.Pairwise.nil, by simp [toList]⟩ hl
  have hnd := spec_nodup ops [] (by simp) hl
  change RbRep key t live at h2
  change (live.map key).Nodup at hnd
  have hinj : ∀ x ∈ live, ∀ y ∈ live, key x = key y → x = y := by
    intro x hx y hy hxy
    by_contra hne
    rw [List.Nodup, List.pairwise_map] at hnd
    obtain ⟨i, hi, rfl⟩ := List.getElem_of_mem hx
    obtain ⟨j, hj, rfl⟩ := List.getElem_of_mem hy
    rw [List.pairwise_iff_getElem] at hnd
    rcases Nat.lt_trichotomy i j with h | h | h
    · exact hnd i j hi hj h hxy
    · subst h; exact hne rfl
    · exact hnd j i hj hi h hxy.symm
  have hperm : t.toList.Perm live := by
    rw [List.perm_ext_iff_of_nodup]
    · exact h2.mem
    · exact h2.sorted.imp fun h => by rintro rfl; exact lt_irrefl _ h
    · exact List.Nodup.of_map _ hnd
  refine ⟨t, h1, fun k => ?_, fun fuel hf => ?_⟩
  · cases hfind : live.find? (fun x => key x = k) with
    | none =>
      cases hse : t.search (cmp · k) with
      | none => rfl
      | some x =>
        obtain ⟨a, b⟩ := (search_spec hc k t h2.sorted x).mp hse
        have := List.find?_eq_none.mp hfind x ((h2.mem x).mp a)
        simp [b] at this
    | some x =>
      rw [search_spec hc k t h2.sorted x]
      have e1 := List.find?_some hfind
      exact ⟨(h2.mem x).mpr (List.mem_of_find?_eq_some hfind), by simpa using e1⟩
  · rw [iterate_spec t fuel (by rw [hperm.length_eq]; exact hf)]
    exact ⟨hperm, h2.sorted⟩

/-- C38.  After every legal history the tree is a red-black tree, and its height is at most `2 * log2 (n + 1)` for
`n` stored nodes. -/
theorem C38_balanced {α κ : Type} [DecidableEq α] [LinearOrder κ] (key : α → κ) (cmp : α → κ → Int)
    (hc : CmpOk key cmp) (ops : List (RbOp α κ)) (hl : RbLegal key [] ops) :
    ∃ t, runRb cmp .nil ops = some t ∧ RedBlack t ∧
      t.height ≤ 2 * Nat.log 2 ((ops.foldl (RbOp.spec key) []).length + 1) := by
  obtain ⟨t, h1, h2⟩ := rbRep_run hc ops .nil [] ⟨⟨rfl, trivial, 0, rfl⟩, List.Pairwise.nil, by simp [toList]⟩ hl
  refine ⟨t, h1, h2.rb, ?_⟩
  have hperm : t.toList.Perm (ops.foldl (RbOp.spec key) []) := by
    rw [List.perm_ext_iff_of_nodup]
    · exact h2.mem
    · exact h2.sorted.imp fun h => by rintro rfl; exact lt_irrefl _ h
    · exact List.Nodup.of_map _ (spec_nodup ops [] (by simp) hl)
  rw [← hperm.length_eq]
  exact height_log t h2.rb

/-- Example: nodes are numbers, the key of `x` is `x % 100`, so that 105 and 5 have the same key. -/
def exRbOps : List (RbOp Nat Nat) :=
  [.insert 5 5, .insert 3 3, .insert 8 8, .insert 105 5, .insert 1 1, .insert 4 4, .insert 7 7, .insert 9 9, .insert 2 2,
   .erase 5, .erase 8, .insert 105 5, .erase 1]

def exRbCmp (x k : Nat) : Int := (k : Int) - (x % 100 : Nat)

example : CmpOk (fun x : Nat => x % 100) exRbCmp := by
  intro x k
  simp only [exRbCmp]
  omega

example : RbLegal (fun x : Nat => x % 100) [] exRbOps := by
  simp [exRbOps, RbLegal, RbOp.Legal, RbOp.spec]

example : ((runRb exRbCmp .nil exRbOps).map (·.iterate 20)) = some [2, 3, 4, 105, 7, 9] := by decide +kernel

end Verif
