import Verif.Spec.Cc
import Verif.Proof.Symbols
import Mathlib.Tactic.SplitIfs
/-
Lemmas about the compiler wrapper.
-/
namespace Verif

/-! ### Compaction -/

/-- The entries kept, with their positions. -/
def keptOf : List (Option CStr) → Nat → List (CStr × Nat)
  | [], _ => []
  | none :: t, j => keptOf t (j + 1)
  | some a :: t, j => (a, j) :: keptOf t (j + 1)

/-- Where one tracked position ends. -/
def compIdx : List (Option CStr) → Nat → Nat → Nat → Nat
  | [], _, _, x => x
  | none :: t, i, j, x => compIdx t i (j + 1) x
  | some _ :: t, i, j, x => compIdx t (i + 1) (j + 1) (if i ≠ j ∧ x = j then i else x)

theorem ccCompact_eq (L : List (Option CStr)) (i j : Nat) (x : CcIdx) :
    ccCompact L i j x = ((keptOf L j).map Prod.fst,
      ⟨compIdx L i j x.input, compIdx L i j x.action, compIdx L i j x.lang⟩) := by
  induction L generalizing i j x with
  | nil => rfl
  | cons o t ih =>
    cases o with
    | none => simp only [ccCompact, keptOf, compIdx, ih]
    | some a =>
      simp only [ccCompact, keptOf, compIdx, ih, List.map_cons]
      by_cases h : i = j
      · simp [h]
      · simp [h, CcIdx.move]

theorem compIdx_before (L : List (Option CStr)) (i j x : Nat) (hij : i ≤ j) (hx : x < j) :
    compIdx L i j x = x := by
  induction L generalizing i j with
  | nil => rfl
  | cons o t ih =>
    cases o with
    | none => rw [compIdx]; exact ih i (j + 1) (by omega) (by omega)
    | some a =>
      rw [compIdx, if_neg (by omega)]
      exact ih (i + 1) (j + 1) (by omega) (by omega)

theorem keptOf_ge (L : List (Option CStr)) (j : Nat) : ∀ p ∈ keptOf L j, j ≤ p.2 := by
  induction L generalizing j with
  | nil => simp [keptOf]
  | cons o t ih =>
    cases o with
    | none => rw [keptOf]; intro p hp; have := ih (j + 1) p hp; omega
    | some a =>
      rw [keptOf]
      intro p hp
      rcases List.mem_cons.1 hp with rfl | hp
      · exact Nat.le_refl _
      · have := ih (j + 1) p hp; omega

theorem compIdx_get (L : List (Option CStr)) (i j x : Nat) (hij : i ≤ j) (a : CStr) (hk : (a, x) ∈ keptOf L j) :
    i ≤ compIdx L i j x ∧ (keptOf L j)[compIdx L i j x - i]? = some (a, x) := by
  induction L generalizing i j with
  | nil => simp [keptOf] at hk
  | cons o t ih =>
    cases o with
    | none =>
      rw [compIdx, keptOf]
      exact ih i (j + 1) (by omega) (by simpa [keptOf] using hk)
    | some b =>
      rw [compIdx, keptOf]
      rw [keptOf] at hk
      by_cases hx : x = j
      · subst hx
        have hi : (if i ≠ x ∧ x = x then i else x) = i := by by_cases h : i = x <;> simp [h]
        rw [hi, compIdx_before t (i + 1) (x + 1) i (by omega) (by omega)]
        refine ⟨Nat.le_refl _, ?_⟩
        rcases List.mem_cons.1 hk with h | h
        · simp [h]
        · have := keptOf_ge t (x + 1) _ h
          dsimp only at this
          omega
      · rw [if_neg (by simp [hx])]
        have hb' : (a, x) ∈ keptOf t (j + 1) := by
          rcases List.mem_cons.1 hk with h | h
          · simp only [Prod.mk.injEq] at h; exact absurd h.2 hx
          · exact h
        obtain ⟨h1, h2⟩ := ih (i + 1) (j + 1) (by omega) hb'
        refine ⟨by omega, ?_⟩
        rw [show compIdx t (i + 1) (j + 1) x - i = (compIdx t (i + 1) (j + 1) x - (i + 1)) + 1 by omega,
          List.getElem?_cons_succ, h2]

theorem keptOf_inj (L : List (Option CStr)) (j : Nat) (n m : Nat) (p q : CStr × Nat)
    (h1 : (keptOf L j)[n]? = some p) (h2 : (keptOf L j)[m]? = some q) (hpq : p.2 = q.2) : n = m := by
  induction L generalizing j n m with
  | nil => simp [keptOf] at h1
  | cons o t ih =>
    cases o with
    | none => exact ih (j + 1) n m h1 h2
    | some a =>
      rw [keptOf] at h1 h2
      cases n with
      | zero =>
        cases m with
        | zero => rfl
        | succ m =>
          simp only [List.getElem?_cons_zero, Option.some.injEq, List.getElem?_cons_succ] at h1 h2
          have := keptOf_ge t (j + 1) q (List.mem_of_getElem? h2)
          rw [← hpq, ← h1] at this
          dsimp only at this
          omega
      | succ n =>
        cases m with
        | zero =>
          simp only [List.getElem?_cons_zero, Option.some.injEq, List.getElem?_cons_succ] at h1 h2
          have := keptOf_ge t (j + 1) p (List.mem_of_getElem? h1)
          rw [hpq, ← h2] at this
          dsimp only at this
          omega
        | succ m =>
          simp only [List.getElem?_cons_succ] at h1 h2
          rw [ih (j + 1) n m h1 h2]

/-- Overwriting a tracked position in the finished vector overwrites the argument that was at the
original position, and nothing else. -/
theorem set_tracked (L : List (Option CStr)) (x : Nat) (a : CStr) (hk : (a, x) ∈ keptOf L 1) (v g : CStr)
    (ap : List CStr) (f : CStr × Nat → CStr) :
    (g :: (keptOf L 1).map f ++ ap).set (compIdx L 1 1 x) v =
      g :: ((keptOf L 1).map fun p => if p.2 = x then v else f p) ++ ap := by
  obtain ⟨h1, h2⟩ := compIdx_get L 1 1 x (Nat.le_refl _) a hk
  obtain ⟨hlt, -⟩ := List.getElem?_eq_some_iff.1 h2
  rw [show compIdx L 1 1 x = (compIdx L 1 1 x - 1) + 1 by omega, List.cons_append, List.set_cons_succ,
    List.set_append_left _ _ (by simpa using hlt)]
  congr 2
  apply List.ext_getElem?
  intro n
  rw [List.getElem?_set, List.getElem?_map, List.getElem?_map]
  by_cases hn : compIdx L 1 1 x - 1 = n
  · rw [if_pos hn, ← hn, h2, if_pos (by simpa using hlt)]
    simp
  · rw [if_neg hn]
    cases hp : (keptOf L 1)[n]? with
    | none => rfl
    | some p =>
      simp only [Option.map_some]
      rw [if_neg]
      intro hc
      exact hn (keptOf_inj L 1 _ _ _ _ h2 hp hc.symm)

theorem get_tracked (L : List (Option CStr)) (x : Nat) (a : CStr) (hk : (a, x) ∈ keptOf L 1) (g : CStr)
    (ap : List CStr) (f : CStr × Nat → CStr) :
    (g :: (keptOf L 1).map f ++ ap)[compIdx L 1 1 x]? = some (f (a, x)) := by
  obtain ⟨h1, h2⟩ := compIdx_get L 1 1 x (Nat.le_refl _) a hk
  obtain ⟨hlt, -⟩ := List.getElem?_eq_some_iff.1 h2
  rw [show compIdx L 1 1 x = (compIdx L 1 1 x - 1) + 1 by omega, List.cons_append, List.getElem?_cons_succ,
    List.getElem?_append_left (by simpa using hlt), List.getElem?_map, h2]
  rfl

/-! ### Removal -/

theorem isOption_iff (a : CStr) (h0 : 0#8 ∉ a) :
    IsOption a ↔ ¬ (argAt a 0 ≠ 45#8 ∨ argAt a 1 = 0#8) := by
  unfold IsOption argAt
  match a with
  | [] => simp
  | [b] => simp
  | b :: c :: t =>
    simp only [List.cons.injEq, List.getElem?_cons_zero, List.getElem?_cons_succ, Option.getD_some, not_or, ne_eq, Decidable.not_not]
    constructor
    · rintro ⟨c', t', ⟨h1, h2, h3⟩, h4⟩
      exact ⟨h1, h2 ▸ h4⟩
    · rintro ⟨h1, h2⟩
      exact ⟨c, t, ⟨h1, rfl, rfl⟩, h2⟩

theorem ccRemoved_sound (R : List CStr) (a : CStr) (hR : ArgsOk R) (ha : 0#8 ∉ a) (h : ccRemoved R a = true) :
    IsOption a ∧ a ∈ R := by
  unfold ccRemoved at h
  split at h
  · simp at h
  · rename_i hn
    refine ⟨(isOption_iff a ha).2 hn, ?_⟩
    have : ∀ l u i, u ≤ R.length → bsearchName R a l u = some i → a ∈ R := by
      intro l u
      fun_induction bsearchName R a l u with
      | case1 l u hlt idx c hc ih => intro i hu hi; exact ih i (by omega) hi
      | case2 l u hlt idx c hc hc2 ih => intro i hu hi; exact ih i hu hi
      | case3 l u hlt idx c hc hc2 =>
        intro i hu hi
        have hidx : idx < R.length := by omega
        have hz : strcmp a (R.getD idx []) = 0 := by omega
        rw [List.getD_eq_getElem?_getD, List.getElem?_eq_getElem hidx, Option.getD_some] at hz
        have := strcmp_eq_zero a R[idx] ha (hR _ (List.getElem_mem hidx)) hz
        rw [this]; exact List.getElem_mem hidx
      | case4 => intro i hu hi; simp at hi
    cases hb : bsearchName R a 0 R.length with
    | none => rw [hb] at h; simp at h
    | some i => exact this 0 R.length i (Nat.le_refl _) hb

theorem ccRemoved_sorted (R : List CStr) (a : CStr) (hR : ArgsOk R) (ha : 0#8 ∉ a)
    (hs : R.Pairwise fun a b => strcmp a b ≤ 0) : ccRemoved R a = true ↔ IsOption a ∧ a ∈ R := by
  refine ⟨ccRemoved_sound R a hR ha, ?_⟩
  rintro ⟨h1, h2⟩
  unfold ccRemoved
  rw [if_neg ((isOption_iff a ha).1 h1)]
  have := bsearchName_spec R a hR ha hs 0 R.length (Nat.le_refl _) (by simp) (by intro i h1 h2; omega)
  cases hb : bsearchName R a 0 R.length with
  | none => rw [hb] at this; exact absurd h2 this
  | some i => rfl

/-- The entries after the scan and the removal, with positions. -/
theorem keptOf_nullify (R : List CStr) (nulls : List Nat) (args : List CStr) (k : Nat) :
    keptOf (ccNullify R (args.mapIdx fun m a => if m + k ∈ nulls then none else some a)) k =
      (args.zipIdx k).filter fun p => decide (p.2 ∉ nulls) && !ccRemoved R p.1 := by
  induction args generalizing k with
  | nil => rfl
  | cons a args ih =>
    have ih' := ih (k + 1)
    have hshift : (fun m a => if m + 1 + k ∈ nulls then (none : Option CStr) else some a) =
        (fun m a => if m + (k + 1) ∈ nulls then none else some a) := by
      funext m a; rw [show m + 1 + k = m + (k + 1) by omega]
    simp only [List.mapIdx_cons, Nat.zero_add, ccNullify, List.map_cons, List.zipIdx_cons]
    simp only [ccNullify] at ih'
    rw [hshift]
    by_cases hn : k ∈ nulls
    · simp [hn, keptOf, ih']
    · by_cases hr : ccRemoved R a = true
      · simp [hn, hr, keptOf, ih']
      · simp [hn, hr, keptOf, ih']

/-! ### The scan -/

/-- What holds of the variables of the scan when it stands at position `i`. -/
structure ScanInv (args : List CStr) (i : Nat) (st : CcScan) : Prop where
  input : st.idxInput ≠ 0 → ∃ a, argPos args st.idxInput = some a ∧ (argAt a 0 ≠ 45#8 ∨ argAt a 1 = 0#8)
  action : (st.action = .compileSingle ∨ st.action = .generateAsm) → st.idxAction ≠ 0
  action' : st.idxAction ≠ 0 → ∃ a, argPos args st.idxAction = some a ∧ argAt a 0 = 45#8 ∧
    (argAt a 1 = 99#8 ∨ argAt a 1 = 83#8)
  nulls : ∀ p ∈ st.nulls, (∃ a, argPos args p = some a ∧ argAt a 0 = 45#8 ∧ argAt a 1 = 111#8) ∨
    (∃ a, argPos args (p - 1) = some a ∧ argAt a 0 = 45#8 ∧ argAt a 1 = 111#8 ∧ argAt a 2 = 0#8)
  lt1 : st.idxInput < i
  lt2 : st.idxAction < i
  lt3 : st.idxLang < i
  lt4 : ∀ p ∈ st.nulls, p < i
  sep : st.idxInput ≠ 0 → st.idxInput ∉ st.nulls ∧ st.idxInput ≠ st.idxAction ∧ st.idxInput ≠ st.idxLang
  sep' : st.idxAction ≠ 0 → st.idxAction ∉ st.nulls ∧ st.idxAction ≠ st.idxLang
  sep'' : st.idxLang ≠ 0 → st.idxLang ∉ st.nulls

variable {args : List CStr} {i : Nat} {st : CcScan}

theorem ScanInv.skip (h : ScanInv args i st) {j : Nat} (hj : i ≤ j) : ScanInv args j st :=
  { h with
    lt1 := Nat.lt_of_lt_of_le h.lt1 hj
    lt2 := Nat.lt_of_lt_of_le h.lt2 hj
    lt3 := Nat.lt_of_lt_of_le h.lt3 hj
    lt4 := fun p hp => Nat.lt_of_lt_of_le (h.lt4 p hp) hj }

theorem ScanInv.setInput (h : ScanInv args i st) (hi : 1 ≤ i) {a : CStr} (ha : argPos args i = some a)
    (hc : argAt a 0 ≠ 45#8 ∨ argAt a 1 = 0#8) :
    ScanInv args (i + 1) { st with inputs := i :: st.inputs, idxInput := i } where
  input := fun _ => ⟨a, ha, hc⟩
  action := h.action
  action' := h.action'
  nulls := h.nulls
  lt1 := by dsimp only; omega
  lt2 := by have := h.lt2; dsimp only; omega
  lt3 := by have := h.lt3; dsimp only; omega
  lt4 := fun p hp => by have := h.lt4 p hp; omega
  sep := fun _ => ⟨fun hp => by have := h.lt4 _ hp; dsimp only at this; omega, by have := h.lt2; dsimp only; omega,
    by have := h.lt3; dsimp only; omega⟩
  sep' := h.sep'
  sep'' := h.sep''

theorem ScanInv.setLang (h : ScanInv args i st) {k j : Nat} (hk : i ≤ k) (hj : k < j) :
    ScanInv args j { st with idxLang := k } where
  input := h.input
  action := h.action
  action' := h.action'
  nulls := h.nulls
  lt1 := by have := h.lt1; dsimp only; omega
  lt2 := by have := h.lt2; dsimp only; omega
  lt3 := hj
  lt4 := fun p hp => by have := h.lt4 p hp; omega
  sep := fun h0 => ⟨(h.sep h0).1, (h.sep h0).2.1, by have := h.lt1; dsimp only; omega⟩
  sep' := fun h0 => ⟨(h.sep' h0).1, by have := h.lt2; dsimp only; omega⟩
  sep'' := fun _ hp => by have := h.lt4 _ hp; dsimp only at this; omega

theorem ScanInv.setAction (h : ScanInv args i st) (hi : 1 ≤ i) {a : CStr} (ha : argPos args i = some a)
    (h0 : argAt a 0 = 45#8) (hc : argAt a 1 = 99#8 ∨ argAt a 1 = 83#8) (act : CcAction) :
    ScanInv args (i + 1) { st with action := act, idxAction := i } where
  input := h.input
  action := fun _ => by dsimp only; omega
  action' := fun _ => ⟨a, ha, h0, hc⟩
  nulls := h.nulls
  lt1 := by have := h.lt1; dsimp only; omega
  lt2 := by dsimp only; omega
  lt3 := by have := h.lt3; dsimp only; omega
  lt4 := fun p hp => by have := h.lt4 p hp; omega
  sep := fun h0 => ⟨(h.sep h0).1, by have := h.lt1; dsimp only; omega, (h.sep h0).2.2⟩
  sep' := fun _ => ⟨fun hp => by have := h.lt4 _ hp; dsimp only at this; omega, by have := h.lt3; dsimp only; omega⟩
  sep'' := h.sep''

theorem ScanInv.setOther (h : ScanInv args i st) {act : CcAction} (hn : act ≠ .compileSingle ∧ act ≠ .generateAsm) :
    ScanInv args (i + 1) { st with action := act } :=
  { h.skip (Nat.le_succ i) with action := fun hc => by rcases hc with hc | hc <;> simp_all }

theorem ScanInv.setOut1 (h : ScanInv args i st) {a : CStr} (ha : argPos args i = some a)
    (h0 : argAt a 0 = 45#8) (hc : argAt a 1 = 111#8) (o : Option CStr) :
    ScanInv args (i + 1) { st with nulls := i :: st.nulls, output := o } where
  input := h.input
  action := h.action
  action' := h.action'
  nulls := fun p hp => by
    rcases List.mem_cons.1 hp with rfl | hp
    · exact Or.inl ⟨a, ha, h0, hc⟩
    · exact h.nulls p hp
  lt1 := by have := h.lt1; dsimp only; omega
  lt2 := by have := h.lt2; dsimp only; omega
  lt3 := by have := h.lt3; dsimp only; omega
  lt4 := fun p hp => by
    rcases List.mem_cons.1 hp with rfl | hp
    · omega
    · have := h.lt4 p hp; omega
  sep := fun h0 => ⟨by
      have := (h.sep h0).1; have := h.lt1; intro hp
      rcases List.mem_cons.1 hp with h1 | h1
      · dsimp only at h1; omega
      · contradiction, (h.sep h0).2⟩
  sep' := fun h0 => ⟨by
      have := (h.sep' h0).1; have := h.lt2; intro hp
      rcases List.mem_cons.1 hp with h1 | h1
      · dsimp only at h1; omega
      · contradiction, (h.sep' h0).2⟩
  sep'' := fun h0 => by
      have := h.sep'' h0; have := h.lt3; intro hp
      rcases List.mem_cons.1 hp with h1 | h1
      · dsimp only at h1; omega
      · contradiction

theorem ScanInv.setOut2 (h : ScanInv args i st) {a : CStr} (ha : argPos args i = some a)
    (h0 : argAt a 0 = 45#8) (hc : argAt a 1 = 111#8) (h2 : argAt a 2 = 0#8) (o : Option CStr) :
    ScanInv args (i + 2) { st with nulls := (i + 1) :: i :: st.nulls, output := o } where
  input := h.input
  action := h.action
  action' := h.action'
  nulls := fun p hp => by
    rcases List.mem_cons.1 hp with rfl | hp
    · exact Or.inr ⟨a, ha, h0, hc, h2⟩
    · rcases List.mem_cons.1 hp with rfl | hp
      · exact Or.inl ⟨a, ha, h0, hc⟩
      · exact h.nulls p hp
  lt1 := by have := h.lt1; dsimp only; omega
  lt2 := by have := h.lt2; dsimp only; omega
  lt3 := by have := h.lt3; dsimp only; omega
  lt4 := fun p hp => by
    rcases List.mem_cons.1 hp with rfl | hp
    · omega
    · rcases List.mem_cons.1 hp with rfl | hp
      · omega
      · have := h.lt4 p hp; omega
  sep := fun h0 => ⟨by
      have := (h.sep h0).1; have := h.lt1; intro hp
      simp only [List.mem_cons] at hp
      rcases hp with h1 | h1 | h1
      · omega
      · omega
      · contradiction, (h.sep h0).2⟩
  sep' := fun h0 => ⟨by
      have := (h.sep' h0).1; have := h.lt2; intro hp
      simp only [List.mem_cons] at hp
      rcases hp with h1 | h1 | h1
      · omega
      · omega
      · contradiction, (h.sep' h0).2⟩
  sep'' := fun h0 => by
      have := h.sep'' h0; have := h.lt3; intro hp
      simp only [List.mem_cons] at hp
      rcases hp with h1 | h1 | h1
      · omega
      · omega
      · contradiction

theorem iteP {α : Type} {P : α → Prop} {c : Prop} [Decidable c] {x y : α} (h1 : c → P x) (h2 : ¬ c → P y) :
    P (if c then x else y) := by
  by_cases h : c
  · rw [if_pos h]; exact h1 h
  · rw [if_neg h]; exact h2 h

theorem ccScan_inv (args : List CStr) (n : Nat) : ∀ (l : List CStr) (i : Nat) (st : CcScan), l.length ≤ n → 1 ≤ i →
    (∀ k, l[k]? = args[i - 1 + k]?) → ScanInv args i st → ∃ j, ScanInv args j (ccScan l i st) := by
  induction n with
  | zero =>
    intro l i st hn _ _ h
    have : l = [] := List.length_eq_zero_iff.1 (by omega)
    subst this
    exact ⟨i, by rw [ccScan]; exact h⟩
  | succ n ih =>
    intro l i st hn hi hl h
    cases l with
    | nil => exact ⟨i, by rw [ccScan]; exact h⟩
    | cons a rest =>
      have hpos : argPos args i = some a := by
        have := hl 0
        simp only [List.getElem?_cons_zero, Nat.add_zero] at this
        rw [argPos, if_neg (by omega), ← this]
      have hl1 : ∀ k, rest[k]? = args[i + 1 - 1 + k]? := by
        intro k
        have := hl (k + 1)
        rw [List.getElem?_cons_succ] at this
        rw [this]; congr 1; omega
      have hl2 : ∀ k, (rest.drop 1)[k]? = args[i + 2 - 1 + k]? := by
        intro k
        rw [List.getElem?_drop, hl1]; congr 1; omega
      have hlen1 : rest.length ≤ n := by simpa using hn
      have hlen2 : (rest.drop 1).length ≤ n := by simp; omega
      rw [ccScan]
      by_cases h0 : argAt a 0 ≠ 45#8 ∨ argAt a 1 = 0#8
      · rw [if_pos h0]
        exact ih rest (i + 1) _ hlen1 (by omega) hl1 (h.setInput hi hpos h0)
      · rw [if_neg h0]
        have h1 : argAt a 0 = 45#8 := by
          by_cases hc : argAt a 0 = 45#8
          · exact hc
          · exact absurd (Or.inl hc) h0
        repeat' (refine iteP (P := fun r => ∃ j, ScanInv args j r) ?_ ?_ <;> intro _)
        all_goals first
          | exact ih _ (i + 1) _ hlen1 (by omega) hl1 (h.skip (by omega))
          | exact ih _ (i + 2) _ hlen2 (by omega) hl2 (h.skip (by omega))
          | exact ih _ (i + 1) _ hlen1 (by omega) hl1 (h.setLang (Nat.le_refl _) (by omega))
          | exact ih _ (i + 2) _ hlen2 (by omega) hl2 (h.setLang (by omega) (by omega))
          | exact ih _ (i + 1) _ hlen1 (by omega) hl1 (h.setAction hi hpos h1 (Or.inl (by assumption)) _)
          | exact ih _ (i + 1) _ hlen1 (by omega) hl1 (h.setAction hi hpos h1 (Or.inr (by assumption)) _)
          | exact ih _ (i + 1) _ hlen1 (by omega) hl1 (h.setOther (by decide))
          | exact ih _ (i + 2) _ hlen2 (by omega) hl2 (h.setOut2 hpos h1 (by assumption) (by assumption) _)
          | exact ih _ (i + 1) _ hlen1 (by omega) hl1 (h.setOut1 hpos h1 (by assumption) _)

end Verif
