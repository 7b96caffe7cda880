import Verif.Spec.RbDestroy
/-
C104: freeing a tree frees every node of it once.
-/
namespace Verif

open AddrTree

theorem laid_congr {h h' : RbHeap} {p : Nat} {t : AddrTree} (e : ∀ a ∈ t.inorder, h' a = h a) (hl : t.Laid h p) : t.Laid h' p := by
  induction t generalizing p with
  | nil => trivial
  | node l a r ihl ihr =>
    obtain ⟨h0, h1, h2, h3⟩ := hl
    refine ⟨h0, by rw [e a (by simp [inorder]), h1], ihl (fun x hx => e x (by simp [inorder, hx])) h2, ihr (fun x hx => e x (by simp [inorder, hx])) h3⟩

/-- What is still to be freed: a node, the tree to its right, and so on with the nodes above. -/
abbrev RbTodo := List (Nat × AddrTree)

def todoHead : RbTodo → Nat
  | [] => 0
  | (a, _) :: _ => a

def todoAll (s : RbTodo) : List Nat := s.flatMap fun p => p.1 :: p.2.inorder

def TodoOk (h : RbHeap) : RbTodo → Prop
  | [] => True
  | (a, r) :: s => a ≠ 0 ∧ (∃ l, h a = some ⟨l, r.root, todoHead s⟩) ∧ r.Laid h a ∧ TodoOk h s

/-- The nodes on the way to the leftmost. -/
def todoPush : AddrTree → RbTodo → RbTodo
  | .nil, s => s
  | .node l a r, s => todoPush l ((a, r) :: s)

theorem todoAll_push (t : AddrTree) (s : RbTodo) : todoAll (todoPush t s) = t.inorder ++ todoAll s := by
  induction t generalizing s with
  | nil => rfl
  | node l a r ihl _ => rw [todoPush, ihl]; simp [todoAll, inorder]

theorem todoOk_congr {h h' : RbHeap} {s : RbTodo} (e : ∀ a ∈ todoAll s, h' a = h a) (hs : TodoOk h s) : TodoOk h' s := by
  induction s with
  | nil => trivial
  | cons p s ih =>
    obtain ⟨a, r⟩ := p
    obtain ⟨h0, ⟨l, h1⟩, h2, h3⟩ := hs
    exact ⟨h0, ⟨l, by rw [e a (by simp [todoAll]), h1]⟩, laid_congr (fun x hx => e x (by simp [todoAll, hx])) h2,
      ih (fun x hx => e x (by simp only [todoAll, List.flatMap_cons, List.mem_append]; exact Or.inr hx)) h3⟩

theorem todoOk_push {h : RbHeap} {t : AddrTree} {s : RbTodo} (ht : t.Laid h (todoHead s)) (hs : TodoOk h s) : TodoOk h (todoPush t s) := by
  induction t generalizing s with
  | nil => exact hs
  | node l a r ihl _ =>
    obtain ⟨h0, h1, h2, h3⟩ := ht
    exact ihl h2 ⟨h0, ⟨_, h1⟩, h3, hs⟩

theorem root_zero {h : RbHeap} {p : Nat} {t : AddrTree} (ht : t.Laid h p) (h0 : t.root = 0) : t = .nil := by
  cases t with
  | nil => rfl
  | node l a r => exact absurd h0 ht.1

theorem rbdLeft_push {h : RbHeap} {t : AddrTree} {p : Nat} (s : RbTodo) {k : Nat} (ht : t.Laid h p) (h0 : t ≠ .nil) (hk : t.inorder.length ≤ k) :
    rbdLeft k h t.root = some (todoHead (todoPush t s)) := by
  induction t generalizing s k p with
  | nil => exact absurd rfl h0
  | node l a r ihl _ =>
    obtain ⟨ha, h1, h2, h3⟩ := ht
    simp only [inorder, List.length_append, List.length_cons] at hk
    obtain ⟨k, rfl⟩ : ∃ j, k = j + 1 := ⟨k - 1, by omega⟩
    show rbdLeft (k + 1) h a = _
    rw [rbdLeft, h1]
    dsimp only
    by_cases e : l.root = 0
    · rw [if_pos e, root_zero h2 e]; rfl
    · rw [if_neg e]
      exact ihl _ h2 (by rintro rfl; exact e rfl) (by omega)

theorem rbdLoop_todo {s : RbTodo} {h : RbHeap} {k : Nat} (hs : TodoOk h s) (hn : (todoAll s).Nodup) (hk : (todoAll s).length < k) :
    rbdLoop k h (todoHead s) = some (fun x => if x ∈ todoAll s then none else h x, todoAll s) := by
  induction k generalizing s h with
  | zero => omega
  | succ k ih =>
    cases s with
    | nil => simp [rbdLoop, todoHead, todoAll]
    | cons q s =>
      obtain ⟨a, r⟩ := q
      obtain ⟨ha, ⟨l, h1⟩, h2, h3⟩ := hs
      have hall : todoAll ((a, r) :: s) = a :: (r.inorder ++ todoAll s) := by simp [todoAll]
      rw [hall] at hn hk ⊢
      rw [List.nodup_cons] at hn
      obtain ⟨hna, hn⟩ := hn
      simp only [List.mem_append, not_or] at hna
      show rbdLoop (k + 1) h a = _
      rw [rbdLoop, if_neg ha, h1]
      dsimp only
      have hset : ∀ x, x ≠ a → (h.set a none) x = h x := fun x hx => if_neg hx
      have hs1 : TodoOk (h.set a none) s := todoOk_congr (fun x hx => hset x (by rintro rfl; exact hna.2 hx)) h3
      have hr1 : r.Laid (h.set a none) a := laid_congr (fun x hx => hset x (by rintro rfl; exact hna.1 hx)) h2
      simp only [List.length_cons, List.length_append] at hk
      cases r with
      | nil =>
        rw [if_neg (by simp [AddrTree.root])]
        have hc : rbdClimb k (h.set a none) a (todoHead s) = some (todoHead s) := by
          obtain ⟨k, rfl⟩ : ∃ j, k = j + 1 := ⟨k - 1, by omega⟩
          rw [rbdClimb]
          cases s with
          | nil => rfl
          | cons q s =>
            obtain ⟨b, t⟩ := q
            obtain ⟨hb, ⟨l', hb1⟩, hb2, _⟩ := hs1
            show (if b = 0 then _ else _) = _
            rw [if_neg hb, show (h.set a none) (todoHead ((b, t) :: s)) = _ from hb1]
            dsimp only
            refine (if_neg fun e : a = t.root => ?_).trans rfl
            cases t with
            | nil => exact ha e
            | node x c y => exact hna.2 (by rw [show a = c from e]; simp [todoAll, inorder])
        rw [hc]
        dsimp only
        rw [ih hs1 (by simpa [inorder] using hn) (by simp [inorder] at hk; omega)]
        simp only [Option.map_some, inorder, List.nil_append, Option.some.injEq, Prod.mk.injEq, and_true]
        funext x
        by_cases e : x = a
        · subst e; simp [hna.2, RbHeap.set]
        · simp [e, hset]
      | node x c y =>
        obtain ⟨hc0, hc1, hc2, hc3⟩ := hr1
        show (if c ≠ 0 then _ else _) = _
        rw [if_pos hc0]
        show (match (h.set a none) c with | none => _ | some m => _) = _
        rw [hc1]
        dsimp only
        generalize hh : (h.set a none).set (AddrTree.node x c y).root (some ⟨x.root, y.root, todoHead s⟩) = h'
        have hset' : ∀ z, z ≠ c → h' z = (h.set a none) z := fun z hz => by rw [← hh]; exact if_neg hz
        have hc' : h' c = some ⟨x.root, y.root, todoHead s⟩ := by rw [← hh]; exact if_pos rfl
        have hn' := hn
        simp only [inorder, List.append_assoc, List.cons_append] at hn'
        rw [List.nodup_append] at hn'
        obtain ⟨_, hn2, hn3⟩ := hn'
        rw [List.nodup_cons] at hn2
        simp only [List.mem_append, not_or] at hn2
        have hcx : ∀ z ∈ x.inorder, z ≠ c := fun z hz => hn3 z hz c (by simp)
        have hcy : ∀ z ∈ y.inorder, z ≠ c := fun z hz e => hn2.1.1 (e ▸ hz)
        have hcs : ∀ z ∈ todoAll s, z ≠ c := fun z hz e => hn2.1.2 (e ▸ hz)
        have hl : (AddrTree.node x c y).Laid h' (todoHead s) :=
          ⟨hc0, hc', laid_congr (fun z hz => hset' z (hcx z hz)) hc2, laid_congr (fun z hz => hset' z (hcy z hz)) hc3⟩
        have hs' : TodoOk h' s := todoOk_congr (fun z hz => hset' z (hcs z hz)) hs1
        show (match rbdLeft k h' (AddrTree.node x c y).root with | none => _ | some nd => _) = _
        rw [rbdLeft_push s hl (by simp) (by omega)]
        dsimp only
        rw [ih (todoOk_push hl hs') (by rw [todoAll_push]; exact hn) (by rw [todoAll_push]; simp; omega), todoAll_push]
        simp only [Option.map_some, Option.some.injEq, Prod.mk.injEq, and_true]
        funext z
        by_cases e : z = a
        · subst e
          have : z ≠ c := by rintro rfl; exact hna.1 (by simp [inorder])
          rw [if_neg (by simp only [List.mem_append, not_or]; exact hna), if_pos (by simp), hset' z this]
          exact if_pos rfl
        · by_cases hz : z ∈ (AddrTree.node x c y).inorder ++ todoAll s
          · rw [if_pos hz, if_pos (by simp only [List.mem_cons]; exact Or.inr hz)]
          · rw [if_neg hz, if_neg (by simp only [List.mem_cons, not_or]; exact ⟨e, hz⟩), hset' z ?_, hset z e]
            rintro rfl
            exact hz (by simp [inorder])

/-- Every tree of nodes in memory: the callback is given every node once, in the order of the keys; no node is read or written after it was
given away, nor anything that is not a node of the tree; afterwards exactly the nodes of the tree are gone and all else is as before. -/
theorem C104_destroy (h : RbHeap) (t : AddrTree) (hl : t.Laid h 0) (hn : t.inorder.Nodup) {fuel : Nat} (hf : t.inorder.length < fuel) :
    rbDestroy fuel h t.root = some (fun x => if x ∈ t.inorder then none else h x, t.inorder) := by
  unfold rbDestroy
  by_cases e : t.root = 0
  · rw [if_pos e, root_zero hl e]; simp [inorder]
  · rw [if_neg e, rbdLeft_push [] hl (by rintro rfl; exact e rfl) (by omega)]
    dsimp only
    have ha : todoAll (todoPush t []) = t.inorder := by rw [todoAll_push]; simp [todoAll]
    rw [rbdLoop_todo (todoOk_push (s := []) hl trivial) (by rw [ha]; exact hn) (by rw [ha]; exact hf), ha]

/-- A tree of five nodes. -/
example : ∃ h : RbHeap, (AddrTree.node (.node .nil 8 (.node .nil 16 .nil)) 24 (.node (.node .nil 32 .nil) 40 .nil)).Laid h 0 :=
  ⟨fun a => if a = 24 then some ⟨8, 40, 0⟩ else if a = 8 then some ⟨0, 16, 24⟩ else if a = 16 then some ⟨0, 0, 8⟩
    else if a = 40 then some ⟨32, 0, 24⟩ else if a = 32 then some ⟨0, 0, 40⟩ else none, by simp [AddrTree.Laid, AddrTree.root]⟩

end Verif
