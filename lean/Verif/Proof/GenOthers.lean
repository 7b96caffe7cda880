import Verif.Proof.GenFuncs
/-
The analysis of other blocks: what it leaves unchanged, and what it finds.
-/
namespace Verif

variable [AsmTarget]

/-! ### The comparison without renames -/

theorem filter_skip (l : List Ln) : l.filter (fun x => !skippedLine x) =
    (l.dropWhile skippedLine).filter (fun x => !skippedLine x) := by
  induction l with
  | nil => rfl
  | cons a l ih =>
    by_cases h : skippedLine a = true
    · rw [List.dropWhile_cons_of_pos h, ← ih, List.filter_cons_of_neg (by simp [h])]
    · rw [List.dropWhile_cons_of_neg h]

theorem dropWhile_head_not {p : Ln → Bool} {l r : List Ln} {a : Ln} (h : l.dropWhile p = a :: r) : p a = false := by
  have := List.head?_dropWhile_not p l
  rw [h] at this
  simpa using this

theorem cmpLines_text {c : CmpCtx} (hr : c.ren = false) (ht : c.ty = .other) : ∀ (n : Nat) (l0 l1 : List Ln), l0.length ≤ n →
    cmpLines c l0 l1 = true → SameStatements l0 l1 := by
  intro n
  induction n with
  | zero =>
    intro l0 l1 hl h
    have : l0 = [] := List.length_eq_zero_iff.mp (by omega)
    subst this
    rw [cmpLines] at h
    unfold SameStatements
    rw [filter_skip l1]
    cases hd : l1.dropWhile skippedLine with
    | nil => exact .nil
    | cons b l1' => simp [hd] at h
  | succ n ih =>
    intro l0 l1 hl h
    rw [cmpLines] at h
    unfold SameStatements
    rw [filter_skip l0, filter_skip l1]
    have hlen := (List.dropWhile_sublist (l := l0) skippedLine).length_le
    split at h
    · rename_i e0 e1; rw [e0, e1]; exact .nil
    · cases h
    · cases h
    · rename_i a l0' b l1' e0 e1
      rw [e0, e1]
      have ha := dropWhile_head_not e0
      have hb := dropWhile_head_not e1
      rw [e0] at hlen
      simp only [List.length_cons] at hlen
      rw [List.filter_cons_of_pos (by simp [ha]), List.filter_cons_of_pos (by simp [hb])]
      split at h
      · cases h
      · split at h
        · rename_i hs
          refine .cons ?_ (ih l0' l1' (by omega) h)
          unfold lineSame at hs
          rw [hr] at hs
          simp only [Bool.or_eq_true, Bool.and_eq_true, decide_eq_true_eq, Bool.false_eq_true, if_false] at hs
          exact hs.symm
        · split at h
          · rename_i hm
            rw [ht] at hm
            simp at hm
          · unfold diffIgnored at h
            simp [ht] at h

/-! ### Files that differ only in their other blocks -/

/-- The blocks are in order and not empty. -/
structure InOrder (f : GFile) : Prop where
  sorted : f.bs.Pairwise fun a b => a.stop ≤ b.start
  nonempty : ∀ b ∈ f.bs, b.start < b.stop

theorem InOrder.lt {f : GFile} (h : InOrder f) : f.bs.Pairwise fun a b => a.start < b.start := by
  refine h.sorted.imp_of_mem fun {a b} ha _ hab => ?_
  have := h.nonempty a ha
  omega

theorem InOrder.starts {f : GFile} (h : InOrder f) : f.Starts := by
  unfold GFile.Starts List.Nodup
  rw [List.pairwise_map]
  exact h.lt.imp fun hab => by omega

def GBlock.isOther (b : GBlock) : Bool := b.ty = .other
def GBlock.plain (b : GBlock) : Bool := b.ty ≠ .other

structure SameRest (f f' : GFile) : Prop where
  ls : f'.ls = f.ls
  nums : f'.nums = f.nums
  ren : f'.ren = f.ren
  basename : f'.basename = f.basename
  plain : f'.bs.filter GBlock.plain = f.bs.filter GBlock.plain
  cover : ∀ i, (∃ b ∈ f'.bs, b.ty = .other ∧ b.start ≤ i ∧ i < b.stop) ↔ ∃ b ∈ f.bs, b.ty = .other ∧ b.start ≤ i ∧ i < b.stop
  names : ∀ b ∈ f'.bs, ∃ c ∈ f.bs, c.ty = b.ty ∧ c.name = b.name

theorem SameRest.refl (f : GFile) : SameRest f f := ⟨rfl, rfl, rfl, rfl, rfl, fun _ => Iff.rfl, fun b hb => ⟨b, hb, rfl, rfl⟩⟩

theorem SameRest.trans {f g h : GFile} (h1 : SameRest f g) (h2 : SameRest g h) : SameRest f h :=
  ⟨h2.ls.trans h1.ls, h2.nums.trans h1.nums, h2.ren.trans h1.ren, h2.basename.trans h1.basename, h2.plain.trans h1.plain,
    fun i => (h2.cover i).trans (h1.cover i), fun b hb => by
      obtain ⟨c, hc, e1, e2⟩ := h2.names b hb
      obtain ⟨d, hd, e3, e4⟩ := h1.names c hc
      exact ⟨d, hd, e3.trans e1, e4.trans e2⟩⟩

theorem SameRest.nameless {f f' : GFile} (h : SameRest f f') (hn : ∀ b ∈ f.bs, b.ty = .other → b.name.text = []) :
    ∀ b ∈ f'.bs, b.ty = .other → b.name.text = [] := by
  intro b hb ht
  obtain ⟨c, hc, e1, e2⟩ := h.names b hb
  rw [← e2]
  exact hn c hc (e1.trans ht)

theorem SameRest.nameOk {f f' : GFile} (h : SameRest f f') (hn : ∀ b ∈ f.bs, b.name.Ok) : ∀ b ∈ f'.bs, b.name.Ok := by
  intro b hb
  obtain ⟨c, hc, _, e2⟩ := h.names b hb
  rw [← e2]
  exact hn c hc

theorem SameRest.mem {f f' : GFile} (h : SameRest f f') {b : GBlock} (ht : b.ty ≠ .other) : b ∈ f'.bs ↔ b ∈ f.bs := by
  have : b ∈ f'.bs.filter GBlock.plain ↔ b ∈ f.bs.filter GBlock.plain := by rw [h.plain]
  simpa [List.mem_filter, GBlock.plain, ht] using this

theorem flatMap_filter' {α β : Type} (l : List α) (g : α → List β) (p : β → Bool) :
    (l.flatMap g).filter p = l.flatMap fun x => (g x).filter p := by
  induction l with
  | nil => rfl
  | cons a l ih => rw [List.flatMap_cons, List.filter_append, ih, List.flatMap_cons]

theorem flatMap_ite {α : Type} (l : List α) (p : α → Bool) : (l.flatMap fun x => if p x then [x] else []) = l.filter p := by
  induction l with
  | nil => rfl
  | cons a l ih =>
    rw [List.flatMap_cons, ih]
    by_cases h : p a = true
    · rw [if_pos h, List.filter_cons_of_pos h]; rfl
    · rw [if_neg h, List.filter_cons_of_neg h]; rfl

theorem flatMap_congr' {α β : Type} {l : List α} {g h : α → List β} (e : ∀ x ∈ l, g x = h x) : l.flatMap g = l.flatMap h := by
  induction l with
  | nil => rfl
  | cons a l ih =>
    rw [List.flatMap_cons, List.flatMap_cons, e a (by simp), ih fun x hx => e x (by simp [hx])]

/-- The two parts of a block that is cut. -/
def cutL (b : GBlock) (len : Nat) : GBlock := { b with stop := b.start + len }
def cutR (b : GBlock) (len : Nat) : GBlock :=
  ⟨b.start + len, b.stop, b.name, ⟨[], 0⟩, b.ty, false, some false, none, false, false⟩

theorem split_eq {f : GFile} (h : InOrder f) {b : GBlock} (hb : b ∈ f.bs) (len : Nat) :
    (f.split b len).bs = f.bs.flatMap fun x => if x = b then [cutL b len, cutR b len] else [x] := by
  unfold GFile.split
  dsimp only
  apply flatMap_congr'
  intro x hx
  by_cases e : x = b
  · subst e; rw [if_pos rfl, if_pos rfl]; rfl
  · rw [if_neg e, if_neg fun e2 => e (start_inj h.starts hx hb e2)]

theorem mem_split {f : GFile} (h : InOrder f) {b : GBlock} (hb : b ∈ f.bs) {len : Nat} {x : GBlock} :
    x ∈ (f.split b len).bs ↔ x = cutL b len ∨ x = cutR b len ∨ (x ∈ f.bs ∧ x ≠ b) := by
  rw [split_eq h hb, List.mem_flatMap]
  constructor
  · rintro ⟨y, hy, hx⟩
    split at hx
    · simp only [List.mem_cons, List.not_mem_nil, or_false] at hx
      rcases hx with hx | hx
      · exact Or.inl hx
      · exact Or.inr (Or.inl hx)
    · rename_i hne
      rw [List.mem_singleton] at hx
      subst hx
      exact Or.inr (Or.inr ⟨hy, hne⟩)
  · rintro (rfl | rfl | ⟨hx, hne⟩)
    · exact ⟨b, hb, by simp⟩
    · exact ⟨b, hb, by simp⟩
    · exact ⟨x, hx, by simp [hne]⟩

theorem split_order {f : GFile} (h : InOrder f) {b : GBlock} (hb : b ∈ f.bs) {len : Nat} (h1 : 0 < len) (h2 : b.start + len < b.stop) :
    InOrder (f.split b len) := by
  refine ⟨?_, fun x hx => ?_⟩
  · rw [split_eq h hb, List.pairwise_flatMap]
    refine ⟨fun x hx => ?_, ?_⟩
    · split
      · refine List.pairwise_pair.mpr ?_
        show b.start + len ≤ b.start + len
        omega
      · exact List.pairwise_singleton _ _
    · refine h.sorted.imp_of_mem fun {x y} hx hy hxy u hu v hv => ?_
      have hy1 := h.nonempty y hy
      have hx1 := h.nonempty x hx
      have ul : u.stop ≤ x.stop := by
        split at hu
        · rename_i e; subst e
          simp only [List.mem_cons, List.not_mem_nil, or_false] at hu
          rcases hu with rfl | rfl <;> simp only [cutL, cutR] <;> omega
        · rw [List.mem_singleton] at hu; subst hu; omega
      have vl : y.start ≤ v.start := by
        split at hv
        · rename_i e; subst e
          simp only [List.mem_cons, List.not_mem_nil, or_false] at hv
          rcases hv with rfl | rfl <;> simp only [cutL, cutR] <;> omega
        · rw [List.mem_singleton] at hv; subst hv; omega
      omega
  · rcases (mem_split h hb).mp hx with rfl | rfl | hx
    · simp only [cutL]; omega
    · simp only [cutR]; omega
    · exact h.nonempty x hx.1

theorem split_rest {f : GFile} (h : InOrder f) {b : GBlock} (hb : b ∈ f.bs) (ht : b.ty = .other) {len : Nat} (h1 : 0 < len)
    (h2 : b.start + len < b.stop) : SameRest f (f.split b len) := by
  refine ⟨rfl, rfl, rfl, rfl, ?_, fun i => ?_, fun x hx => ?_⟩
  · rw [split_eq h hb, flatMap_filter', ← flatMap_ite]
    apply flatMap_congr'
    intro x hx
    by_cases e : x = b
    · subst e
      simp [cutL, cutR, GBlock.plain, ht]
    · rw [if_neg e]
      by_cases hp : x.plain = true <;> simp [hp]
  · constructor
    · rintro ⟨x, hx, hxt, h3, h4⟩
      rcases (mem_split h hb).mp hx with rfl | rfl | hx
      · simp only [cutL] at h3 h4
        exact ⟨b, hb, ht, h3, by omega⟩
      · simp only [cutR] at h3 h4
        exact ⟨b, hb, ht, by omega, h4⟩
      · exact ⟨x, hx.1, hxt, h3, h4⟩
    · rintro ⟨x, hx, hxt, h3, h4⟩
      by_cases e : x = b
      · subst e
        by_cases hi : i < x.start + len
        · exact ⟨cutL x len, (mem_split h hb).mpr (Or.inl rfl), ht, h3, hi⟩
        · exact ⟨cutR x len, (mem_split h hb).mpr (Or.inr (Or.inl rfl)), ht, by simp only [cutR]; omega, h4⟩
      · exact ⟨x, (mem_split h hb).mpr (Or.inr (Or.inr ⟨hx, e⟩)), hxt, h3, h4⟩
  · rcases (mem_split h hb).mp hx with rfl | rfl | hx
    · exact ⟨b, hb, rfl, rfl⟩
    · exact ⟨b, hb, rfl, rfl⟩
    · exact ⟨x, hx.1, rfl, rfl⟩

theorem split_others {f : GFile} (h : InOrder f) {b : GBlock} (ht : b.ty = .other) {len : Nat} {pre tl : List GBlock}
    (he : f.bs.filter GBlock.isOther = pre ++ b :: tl) :
    (f.split b len).bs.filter GBlock.isOther = pre ++ cutL b len :: cutR b len :: tl := by
  have hb : b ∈ f.bs := by
    have : b ∈ f.bs.filter GBlock.isOther := by rw [he]; simp
    exact (List.mem_filter.mp this).1
  have hnd : (f.bs.filter GBlock.isOther).Nodup := by
    have : f.bs.Nodup := List.Nodup.of_map _ h.starts
    exact this.filter _
  rw [split_eq h hb, flatMap_filter']
  have e1 : (f.bs.flatMap fun x => (if x = b then [cutL b len, cutR b len] else [x]).filter GBlock.isOther) =
      (f.bs.filter GBlock.isOther).flatMap fun x => if x = b then [cutL b len, cutR b len] else [x] := by
    generalize f.bs = l
    induction l with
    | nil => rfl
    | cons x l ih =>
      rw [List.flatMap_cons, ih]
      by_cases hx : x.isOther = true
      · rw [List.filter_cons_of_pos hx, List.flatMap_cons]
        congr 1
        split
        · simp [cutL, cutR, GBlock.isOther, ht]
        · simp [hx]
      · rw [List.filter_cons_of_neg hx, if_neg]
        · simp [hx]
        · rintro rfl
          exact hx (by simp [GBlock.isOther, ht])
  rw [e1, he, List.flatMap_append, List.flatMap_cons, if_pos rfl]
  rw [he, List.nodup_append] at hnd
  have e2 : (pre.flatMap fun x => if x = b then [cutL b len, cutR b len] else [x]) = pre := by
    rw [flatMap_congr' (h := fun x => [x])]
    · simp
    · intro x hx
      rw [if_neg]
      rintro rfl
      exact hnd.2.2 x hx x (by simp) rfl
  have e3 : (tl.flatMap fun x => if x = b then [cutL b len, cutR b len] else [x]) = tl := by
    rw [flatMap_congr' (h := fun x => [x])]
    · simp
    · intro x hx
      rw [if_neg]
      rintro rfl
      exact (List.nodup_cons.mp hnd.2.1).1 hx
  rw [e2, e3]
  rfl

/-! ### Pairs -/

theorem upd_eq {f : GFile} (h : InOrder f) {b : GBlock} (hb : b ∈ f.bs) (q : Option Nat) :
    (f.upd b.start fun b => { b with pair := q }).bs = f.bs.map fun x => if x = b then { b with pair := q } else x := by
  unfold GFile.upd
  dsimp only
  apply List.map_congr_left
  intro x hx
  by_cases e : x = b
  · subst e; rw [if_pos rfl, if_pos rfl]
  · rw [if_neg e, if_neg fun e2 => e (start_inj h.starts hx hb e2)]

theorem upd_order {f : GFile} (h : InOrder f) {s : Nat} {q : Option Nat} : InOrder (f.upd s fun b => { b with pair := q }) := by
  have e : ∀ x : GBlock, (if x.start = s then { x with pair := q } else x).start = x.start ∧
      (if x.start = s then { x with pair := q } else x).stop = x.stop := by
    intro x; split <;> exact ⟨rfl, rfl⟩
  refine ⟨?_, fun x hx => ?_⟩
  · unfold GFile.upd
    dsimp only
    rw [List.pairwise_map]
    refine h.sorted.imp fun hxy => ?_
    rw [(e _).1, (e _).2]
    exact hxy
  · unfold GFile.upd at hx
    obtain ⟨y, hy, rfl⟩ := List.mem_map.mp hx
    have := h.nonempty y hy
    rw [(e y).1, (e y).2]
    exact this

theorem upd_rest {f : GFile} (h : InOrder f) {b : GBlock} (hb : b ∈ f.bs) (ht : b.ty = .other) (q : Option Nat) :
    SameRest f (f.upd b.start fun b => { b with pair := q }) := by
  have e : ∀ x : GBlock, (if x.start = b.start then { x with pair := q } else x).start = x.start ∧
      (if x.start = b.start then { x with pair := q } else x).stop = x.stop ∧
      (if x.start = b.start then { x with pair := q } else x).ty = x.ty ∧
      (if x.start = b.start then { x with pair := q } else x).name = x.name := by
    intro x; split <;> exact ⟨rfl, rfl, rfl, rfl⟩
  refine ⟨rfl, rfl, rfl, rfl, ?_, fun i => ?_, fun x hx => ?_⟩
  · rw [upd_eq h hb]
    generalize f.bs = l
    induction l with
    | nil => rfl
    | cons x l ih =>
      rw [List.map_cons]
      by_cases e : x = b
      · subst e
        rw [if_pos rfl, List.filter_cons_of_neg (by simp [GBlock.plain, ht]), List.filter_cons_of_neg (by simp [GBlock.plain, ht]), ih]
      · rw [if_neg e]
        by_cases hp : x.plain = true
        · rw [List.filter_cons_of_pos hp, List.filter_cons_of_pos hp, ih]
        · rw [List.filter_cons_of_neg hp, List.filter_cons_of_neg hp, ih]
  · unfold GFile.upd
    constructor
    · rintro ⟨x, hx, h1, h2, h3⟩
      obtain ⟨y, hy, rfl⟩ := List.mem_map.mp hx
      rw [(e y).2.2.1] at h1
      rw [(e y).1] at h2
      rw [(e y).2.1] at h3
      exact ⟨y, hy, h1, h2, h3⟩
    · rintro ⟨y, hy, h1, h2, h3⟩
      refine ⟨_, List.mem_map.mpr ⟨y, hy, rfl⟩, ?_⟩
      rw [(e y).1, (e y).2.1, (e y).2.2.1]
      exact ⟨h1, h2, h3⟩
  · unfold GFile.upd at hx
    obtain ⟨y, hy, rfl⟩ := List.mem_map.mp hx
    exact ⟨y, hy, (e y).2.2.1.symm, (e y).2.2.2.symm⟩

theorem upd_others {f : GFile} (h : InOrder f) {b : GBlock} (ht : b.ty = .other) {q : Option Nat} {pre tl : List GBlock}
    (he : f.bs.filter GBlock.isOther = pre ++ b :: tl) :
    (f.upd b.start fun b => { b with pair := q }).bs.filter GBlock.isOther = pre ++ { b with pair := q } :: tl := by
  have hb : b ∈ f.bs := by
    have : b ∈ f.bs.filter GBlock.isOther := by rw [he]; simp
    exact (List.mem_filter.mp this).1
  have hnd : (f.bs.filter GBlock.isOther).Nodup := by
    have : f.bs.Nodup := List.Nodup.of_map _ h.starts
    exact this.filter _
  rw [upd_eq h hb, List.filter_map]
  have e1 : f.bs.filter (GBlock.isOther ∘ fun x => if x = b then { b with pair := q } else x) = f.bs.filter GBlock.isOther := by
    apply List.filter_congr
    intro x hx
    dsimp only [Function.comp]
    split
    · rename_i e; subst e; rfl
    · rfl
  rw [e1, he, List.map_append, List.map_cons, if_pos rfl]
  rw [he, List.nodup_append] at hnd
  have e2 : (pre.map fun x => if x = b then { b with pair := q } else x) = pre := by
    conv => rhs; rw [← List.map_id pre]
    apply List.map_congr_left
    intro x hx
    rw [if_neg]
    · rfl
    rintro rfl
    exact hnd.2.2 x hx x (by simp) rfl
  have e3 : (tl.map fun x => if x = b then { b with pair := q } else x) = tl := by
    conv => rhs; rw [← List.map_id tl]
    apply List.map_congr_left
    intro x hx
    rw [if_neg]
    · rfl
    rintro rfl
    exact (List.nodup_cons.mp hnd.2.1).1 hx
  rw [e2, e3]

/-! ### The loop -/

/-- The other blocks `b0` and `b1` have been found the same. -/
def OtherPair (s : GSt) (b0 b1 : GBlock) : Prop :=
  b0.pair = some b1.start ∧ b1.pair = some b0.start ∧ SameStatements (s.f0.lines b0) (s.f1.lines b1)

structure OInv (s s' : GSt) (pre0 pre1 tl0 tl1 : List GBlock) : Prop where
  ord0 : InOrder s'.f0
  ord1 : InOrder s'.f1
  rest0 : SameRest s.f0 s'.f0
  rest1 : SameRest s.f1 s'.f1
  oth0 : s'.f0.bs.filter GBlock.isOther = pre0 ++ tl0
  oth1 : s'.f1.bs.filter GBlock.isOther = pre1 ++ tl1
  pairs : List.Forall₂ (OtherPair s) pre0 pre1
  free0 : ∀ b ∈ tl0, b.pair = none
  free1 : ∀ b ∈ tl1, b.pair = none

theorem lines_rest {f f' : GFile} (h : SameRest f f') (b : GBlock) : f'.lines b = f.lines b := by
  unfold GFile.lines; rw [h.ls]

theorem OInv.split1 {s s' : GSt} {pre0 pre1 tl0 tl1 : List GBlock} {b1 : GBlock} (h : OInv s s' pre0 pre1 tl0 (b1 :: tl1)) {len : Nat}
    (h1 : 0 < len) (h2 : b1.start + len < b1.stop) :
    OInv s { s' with f1 := s'.f1.split b1 len } pre0 pre1 tl0 (cutL b1 len :: cutR b1 len :: tl1) := by
  have hb := List.mem_filter.mp (show b1 ∈ s'.f1.bs.filter GBlock.isOther by rw [h.oth1]; simp)
  have ht : b1.ty = .other := of_decide_eq_true hb.2
  refine ⟨h.ord0, split_order h.ord1 hb.1 h1 h2, h.rest0, h.rest1.trans (split_rest h.ord1 hb.1 ht h1 h2), h.oth0,
    split_others h.ord1 ht h.oth1, h.pairs, h.free0, fun b hm => ?_⟩
  simp only [List.mem_cons] at hm
  rcases hm with rfl | rfl | hm
  · exact h.free1 b1 (by simp)
  · rfl
  · exact h.free1 b (by simp [hm])

theorem OInv.split0 {s s' : GSt} {pre0 pre1 tl0 tl1 : List GBlock} {b0 : GBlock} (h : OInv s s' pre0 pre1 (b0 :: tl0) tl1) {len : Nat}
    (h1 : 0 < len) (h2 : b0.start + len < b0.stop) :
    OInv s { s' with f0 := s'.f0.split b0 len } pre0 pre1 (cutL b0 len :: cutR b0 len :: tl0) tl1 := by
  have hb := List.mem_filter.mp (show b0 ∈ s'.f0.bs.filter GBlock.isOther by rw [h.oth0]; simp)
  have ht : b0.ty = .other := of_decide_eq_true hb.2
  refine ⟨split_order h.ord0 hb.1 h1 h2, h.ord1, h.rest0.trans (split_rest h.ord0 hb.1 ht h1 h2), h.rest1,
    split_others h.ord0 ht h.oth0, h.oth1, h.pairs, fun b hm => ?_, h.free1⟩
  simp only [List.mem_cons] at hm
  rcases hm with rfl | rfl | hm
  · exact h.free0 b0 (by simp)
  · rfl
  · exact h.free0 b (by simp [hm])

theorem OInv.pair {o : GenOpts} {s s' : GSt} {pre0 pre1 tl0 tl1 : List GBlock} {b0 b1 : GBlock} (h : OInv s s' pre0 pre1 (b0 :: tl0) (b1 :: tl1))
    (hs : cblockSame o.os s'.f0 s'.f1 b0 b1 false false = true) :
    OInv s (s'.setPair b0 b1) (pre0 ++ [{ b0 with pair := some b1.start }]) (pre1 ++ [{ b1 with pair := some b0.start }]) tl0 tl1 := by
  have hb0 := List.mem_filter.mp (show b0 ∈ s'.f0.bs.filter GBlock.isOther by rw [h.oth0]; simp)
  have hb1 := List.mem_filter.mp (show b1 ∈ s'.f1.bs.filter GBlock.isOther by rw [h.oth1]; simp)
  have ht0 : b0.ty = .other := of_decide_eq_true hb0.2
  have ht1 : b1.ty = .other := of_decide_eq_true hb1.2
  refine ⟨upd_order h.ord0, upd_order h.ord1, h.rest0.trans (upd_rest h.ord0 hb0.1 ht0 _), h.rest1.trans (upd_rest h.ord1 hb1.1 ht1 _),
    ?_, ?_, ?_, fun b hm => h.free0 b (by simp [hm]), fun b hm => h.free1 b (by simp [hm])⟩
  · rw [List.append_assoc]; exact upd_others h.ord0 ht0 h.oth0
  · rw [List.append_assoc]; exact upd_others h.ord1 ht1 h.oth1
  · refine List.rel_append h.pairs (.cons ⟨rfl, rfl, ?_⟩ .nil)
    have := cmpLines_text (c := cmpCtx o.os s'.f0 s'.f1 b0 b1 false false) rfl ht0 _ _ _ (Nat.le_refl _) hs
    rw [lines_rest h.rest0, lines_rest h.rest1] at this
    exact this

theorem otherStep_inv {o : GenOpts} {s s' s'' : GSt} {pre0 pre1 tl0 tl1 : List GBlock} {b0 b1 : GBlock}
    (h : OInv s s' pre0 pre1 (b0 :: tl0) (b1 :: tl1)) (hs : otherStep o s' b0 b1 = some s'') :
    ∃ c0 c1 tl0' tl1', OInv s s'' (pre0 ++ [c0]) (pre1 ++ [c1]) tl0' tl1' ∧ c0.start = b0.start ∧ c1.start = b1.start := by
  unfold otherStep at hs
  split at hs
  · rename_i hsame
    cases hs
    exact ⟨_, _, tl0, tl1, h.pair hsame, rfl, rfl⟩
  · dsimp only at hs
    have hb0 := List.mem_filter.mp (show b0 ∈ s'.f0.bs.filter GBlock.isOther by rw [h.oth0]; simp)
    have hb1 := List.mem_filter.mp (show b1 ∈ s'.f1.bs.filter GBlock.isOther by rw [h.oth1]; simp)
    have l0 := h.ord0.nonempty b0 hb0.1
    have l1 := h.ord1.nonempty b1 hb1.1
    by_cases h1 : b1.stop - b1.start > b0.stop - b0.start
    · simp only [if_pos h1] at hs
      have hn : ¬ (b0.stop - b0.start > b1.start + (b0.stop - b0.start) - b1.start) := by omega
      simp only [if_neg hn] at hs
      split at hs
      · rename_i hsame
        cases hs
        exact ⟨_, _, _, _, (h.split1 (len := b0.stop - b0.start) (by omega) (by omega)).pair hsame, rfl, rfl⟩
      · cases hs
    · simp only [if_neg h1] at hs
      by_cases h2 : b0.stop - b0.start > b1.stop - b1.start
      · simp only [if_pos h2] at hs
        split at hs
        · rename_i hsame
          cases hs
          exact ⟨_, _, _, _, (h.split0 (len := b1.stop - b1.start) (by omega) (by omega)).pair hsame, rfl, rfl⟩
        · cases hs
      · simp only [if_neg h2] at hs
        split at hs
        · rename_i hsame
          cases hs
          exact ⟨_, _, tl0, tl1, h.pair hsame, rfl, rfl⟩
        · cases hs

/-- The next other block is the first one of the rest. -/
theorem nextFrom_other {f : GFile} (h : InOrder f) {pre tl : List GBlock} {i : Nat} (he : f.bs.filter GBlock.isOther = pre ++ tl)
    (hp : ∀ b ∈ pre, b.start < i) (ht : ∀ b ∈ tl, i ≤ b.start) : (f.nextFrom i .other).bind f.at = tl.head? := by
  have e : f.bs.find? (fun b => decide (i ≤ b.start) && decide (b.ty = .other)) = tl.head? := by
    have : f.bs.find? (fun b => decide (i ≤ b.start) && decide (b.ty = .other)) =
        (f.bs.filter GBlock.isOther).find? fun b => decide (i ≤ b.start) := by
      rw [List.find?_filter]
      congr 1
      funext b
      unfold GBlock.isOther
      rw [Bool.and_comm]
      by_cases h1 : b.ty = .other <;> by_cases h2 : i ≤ b.start <;> simp [h1, h2]
    rw [this, he, List.find?_append, List.find?_eq_none.mpr (fun b hb => by have := hp b hb; simp; omega), Option.none_or]
    cases tl with
    | nil => rfl
    | cons b tl => rw [List.find?_cons_of_pos (by simpa using ht b (by simp))]; rfl
  unfold GFile.nextFrom
  rw [e]
  cases tl with
  | nil => rfl
  | cons b tl =>
    have hb := List.mem_filter.mp (show b ∈ f.bs.filter GBlock.isOther by rw [he]; simp)
    simp only [List.head?_cons, Option.map_some, Option.bind_some]
    exact at_of_mem h.starts hb.1

theorem otherPairs_inv {o : GenOpts} {s : GSt} : ∀ (fuel : Nat) (s' s'' : GSt) (i0 i1 : Nat) (pre0 pre1 tl0 tl1 : List GBlock),
    OInv s s' pre0 pre1 tl0 tl1 → (∀ b ∈ pre0, b.start < i0) → (∀ b ∈ pre1, b.start < i1) → (∀ b ∈ tl0, i0 ≤ b.start) →
    (∀ b ∈ tl1, i1 ≤ b.start) → otherPairs o fuel s' i0 i1 = some s'' → ∃ p0 p1 t0 t1, OInv s s'' p0 p1 t0 t1 := by
  intro fuel
  induction fuel with
  | zero => intro s' s'' i0 i1 pre0 pre1 tl0 tl1 h _ _ _ _ hs; cases hs; exact ⟨_, _, _, _, h⟩
  | succ fuel ih =>
    intro s' s'' i0 i1 pre0 pre1 tl0 tl1 h hp0 hp1 ht0 ht1 hs
    rw [otherPairs, nextFrom_other h.ord0 h.oth0 hp0 ht0, nextFrom_other h.ord1 h.oth1 hp1 ht1] at hs
    split at hs
    · rename_i b0 b1 e0 e1
      obtain ⟨tl0, rfl⟩ : ∃ t, tl0 = b0 :: t := by cases tl0 <;> simp at e0; subst e0; exact ⟨_, rfl⟩
      obtain ⟨tl1, rfl⟩ : ∃ t, tl1 = b1 :: t := by cases tl1 <;> simp at e1; subst e1; exact ⟨_, rfl⟩
      rw [Option.bind_eq_some_iff] at hs
      obtain ⟨s1, e, hs⟩ := hs
      obtain ⟨c0, c1, t0, t1, h', k0, k1⟩ := otherStep_inv h e
      have sort : ∀ {f : GFile} {p t : List GBlock} {c : GBlock}, InOrder f → f.bs.filter GBlock.isOther = (p ++ [c]) ++ t →
          ∀ b ∈ t, c.start < b.start := by
        intro f p t c ho he b hb
        have := (ho.lt.filter GBlock.isOther)
        rw [he, List.pairwise_append] at this
        exact this.2.2 c (by simp) b hb
      refine ih s1 s'' _ _ _ _ _ _ h' (fun b hb => ?_) (fun b hb => ?_) (fun b hb => ?_) (fun b hb => ?_) hs
      · have := ht0 b0 (by simp)
        rcases List.mem_append.mp hb with hb | hb
        · have := hp0 b hb; omega
        · rw [List.mem_singleton] at hb; subst hb; omega
      · have := ht1 b1 (by simp)
        rcases List.mem_append.mp hb with hb | hb
        · have := hp1 b hb; omega
        · rw [List.mem_singleton] at hb; subst hb; omega
      · have := sort h'.ord0 h'.oth0 b hb; omega
      · have := sort h'.ord1 h'.oth1 b hb; omega
    · cases hs; exact ⟨_, _, _, _, h⟩

theorem analyzeOthers_inv {o : GenOpts} {s s' : GSt} (h0 : InOrder s.f0) (h1 : InOrder s.f1)
    (n0 : ∀ b ∈ s.f0.bs, b.ty = .other → b.pair = none) (n1 : ∀ b ∈ s.f1.bs, b.ty = .other → b.pair = none)
    (hs : analyzeOthers o s = some s') : ∃ p0 p1 t0 t1, OInv s s' p0 p1 t0 t1 := by
  refine otherPairs_inv _ s s' 0 0 [] [] _ _ ⟨h0, h1, .refl _, .refl _, rfl, rfl, .nil, ?_, ?_⟩ (by simp) (by simp) (by simp) (by simp) hs
  · intro b hb
    have := List.mem_filter.mp hb
    exact n0 b this.1 (of_decide_eq_true this.2)
  · intro b hb
    have := List.mem_filter.mp hb
    exact n1 b this.1 (of_decide_eq_true this.2)

end Verif
