import Verif.Model.Kpstr
import Verif.Spec.RbTree
import Mathlib.Data.List.Lex
/-
C41: comparing names is a total order.  C42: tokenising loses nothing.
-/
namespace Verif

/-- A counted string inside of its C string. -/
def Kpstr.Ok (x : Kpstr) : Prop := x.l ≤ x.s.length

/-- Specification: names are compared like words in a dictionary, by the codes of their characters. -/
def dictKey (t : List Byte) : List Nat := t.map BitVec.toNat

theorem dictKey_inj {a b : List Byte} (h : dictKey a = dictKey b) : a = b := by
  unfold dictKey at h
  exact (List.map_inj_right fun x y hxy => BitVec.eq_of_toNat_eq hxy).mp h

/-- Comparison of two texts, without pointers. -/
def cmpText : List Byte → List Byte → Int
  | [], [] => 0
  | [], _ :: _ => -1
  | _ :: _, [] => 1
  | a :: as, b :: bs => if a = b then cmpText as bs else (a.toNat : Int) - b.toNat

theorem memcmp_take : ∀ (n : Nat) (a b : List Byte), memcmp n a b = memcmp n (a.take n) (b.take n)
  | 0, _, _ => by simp [memcmp]
  | n + 1, [], b => by simp [memcmp]
  | n + 1, a :: as, [] => by simp [memcmp]
  | n + 1, a :: as, b :: bs => by
    simp only [memcmp, List.take_succ_cons]
    rw [memcmp_take n as bs]

theorem kpstrcmp_text (x y : Kpstr) (hx : x.Ok) (hy : y.Ok) : kpstrcmp x y = cmpText x.text y.text := by
  have key : ∀ (a b : List Byte), (let res := memcmp (min a.length b.length) a b
      if res ≠ 0 then res else if a.length > b.length then 1 else if a.length < b.length then -1 else 0) = cmpText a b := by
    intro a
    induction a with
    | nil => intro b; cases b <;> simp [memcmp, cmpText]
    | cons c a ih =>
      intro b
      cases b with
      | nil => simp [memcmp, cmpText]
      | cons d b =>
        rw [show min (c :: a).length (d :: b).length = min a.length b.length + 1 by simp]
        simp only [memcmp, cmpText, List.length_cons]
        by_cases hcd : c = d
        · rw [if_pos hcd, if_pos hcd, ← ih b]
          simp
        · have : (c.toNat : Int) - d.toNat ≠ 0 := by
            intro h
            exact hcd (BitVec.eq_of_toNat_eq (by omega))
          simp [hcd, this]
  have lx : x.text.length = x.l := by unfold Kpstr.text; rw [List.length_take]; unfold Kpstr.Ok at hx; omega
  have ly : y.text.length = y.l := by unfold Kpstr.text; rw [List.length_take]; unfold Kpstr.Ok at hy; omega
  rw [← key x.text y.text, lx, ly]
  have hm : memcmp (min x.l y.l) x.s y.s = memcmp (min x.l y.l) x.text y.text := by
    rw [memcmp_take, memcmp_take _ x.text]
    unfold Kpstr.text
    rw [List.take_take, List.take_take, Nat.min_eq_left (Nat.min_le_left ..), Nat.min_eq_left (Nat.min_le_right ..)]
  unfold kpstrcmp kpstrncmp
  have hl : (if (if x.l < y.l then x.l else y.l) < (if x.l > y.l then x.l else y.l) then (if x.l < y.l then x.l else y.l)
      else (if x.l > y.l then x.l else y.l)) = min x.l y.l := by
    repeat' split
    all_goals omega
  simp only [hl, hm]
  split
  · rfl
  · by_cases h1 : x.l > y.l
    · simp [h1]
    · by_cases h2 : x.l < y.l
      · simp [h1, h2]
      · simp [h1, h2]

theorem cmpText_lt : ∀ (a b : List Byte), (cmpText a b < 0 ↔ dictKey a < dictKey b)
  | [], [] => by simp [cmpText, dictKey]
  | [], b :: bs => by simp [cmpText, dictKey]
  | a :: as, [] => by simp [cmpText, dictKey]
  | a :: as, b :: bs => by
    have ih := cmpText_lt as bs
    unfold dictKey at ih ⊢
    simp only [cmpText, List.map_cons, List.cons_lt_cons_iff]
    by_cases hab : a = b
    · subst hab; simp [ih]
    · have : a.toNat ≠ b.toNat := fun h => hab (BitVec.eq_of_toNat_eq h)
      rw [if_neg hab]
      constructor
      · intro h; exact Or.inl (by omega)
      · rintro (h | h)
        · omega
        · exact absurd h.1 this

theorem cmpText_swap : ∀ (a b : List Byte), (0 < cmpText a b ↔ cmpText b a < 0)
  | [], [] => by simp [cmpText]
  | [], b :: bs => by simp [cmpText]
  | a :: as, [] => by simp [cmpText]
  | a :: as, b :: bs => by
    simp only [cmpText]
    by_cases hab : a = b
    · subst hab; simpa using cmpText_swap as bs
    · rw [if_neg hab, if_neg (Ne.symm hab)]; omega

/-- C41.  The comparison of names is the dictionary order: the result is negative, zero or positive exactly if the
first name is before, equal to or after the second one.  So it is a total order whose equality is equality of the
names. -/
theorem C41_dictionary_order (x y : Kpstr) (hx : x.Ok) (hy : y.Ok) :
    (kpstrcmp x y < 0 ↔ dictKey x.text < dictKey y.text) ∧ (kpstrcmp x y = 0 ↔ x.text = y.text) ∧
      (0 < kpstrcmp x y ↔ dictKey y.text < dictKey x.text) := by
  rw [kpstrcmp_text x y hx hy]
  refine ⟨cmpText_lt _ _, ?_, by rw [cmpText_swap, cmpText_lt]⟩
  constructor
  · intro h
    apply dictKey_inj
    rcases lt_trichotomy (dictKey x.text) (dictKey y.text) with q | q | q
    · have := (cmpText_lt _ _).mpr q; omega
    · exact q
    · have := (cmpText_swap x.text y.text).mpr ((cmpText_lt _ _).mpr q); omega
  · intro h
    rw [h]
    have h1 : ¬ cmpText y.text y.text < 0 := fun hc => lt_irrefl _ ((cmpText_lt _ _).mp hc)
    have h2 : ¬ 0 < cmpText y.text y.text := fun hc => h1 ((cmpText_swap _ _).mp hc)
    omega

/-- C41: antisymmetry, transitivity and totality, in terms of the results only. -/
theorem C41_total_order (x y z : Kpstr) (hx : x.Ok) (hy : y.Ok) (hz : z.Ok) :
    (kpstrcmp x y < 0 ↔ 0 < kpstrcmp y x) ∧ (kpstrcmp x y ≤ 0 → kpstrcmp y z ≤ 0 → kpstrcmp x z ≤ 0) ∧
      (kpstrcmp x y = 0 ↔ x.text = y.text) := by
  have h1 := C41_dictionary_order x y hx hy
  have h2 := C41_dictionary_order y z hy hz
  have h3 := C41_dictionary_order x z hx hz
  have h4 := C41_dictionary_order y x hy hx
  refine ⟨by rw [h1.1, h4.2.2], ?_, h1.2.1⟩
  intro a b
  have a' : dictKey x.text ≤ dictKey y.text := by
    by_contra hc
    have := h1.2.2.mpr (lt_of_not_ge hc)
    omega
  have b' : dictKey y.text ≤ dictKey z.text := by
    by_contra hc
    have := h2.2.2.mpr (lt_of_not_ge hc)
    omega
  by_contra hc
  have := h3.2.2.mp (by omega)
  exact absurd (le_trans a' b') (not_le_of_gt this)

/-- A name as a search key, in the order of the trees, which is descending (a negative comparison goes left). -/
structure NameKey where
  bytes : List Byte
deriving Repr

instance : LinearOrder NameKey :=
  LinearOrder.lift' (fun k => OrderDual.toDual (dictKey k.bytes)) (by
    intro a b h
    have := dictKey_inj (OrderDual.toDual.injective h)
    cases a; cases b; simp_all)

theorem nameKey_lt (a b : NameKey) : a < b ↔ dictKey b.bytes < dictKey a.bytes := Iff.rfl

theorem kpz_ok (s : List Byte) : (kpz s).Ok := Nat.le_refl _

theorem kpz_text (s : List Byte) : (kpz s).text = s := by simp [kpz, Kpstr.text]

/-- C41 for the trees: the comparison functions of the block and rename tables (`kpstrcmp(&node->name, key)`) fit the
red-black tree (`CmpOk`), so C37 gives exact lookups by name. -/
theorem C41_tree_order {α : Type} (name : α → List Byte) :
    CmpOk (fun x => NameKey.mk (name x)) (fun x k => kpstrcmp (kpz (name x)) (kpz k.bytes)) := by
  intro x k
  have h := C41_dictionary_order (kpz (name x)) (kpz k.bytes) (kpz_ok _) (kpz_ok _)
  rw [kpz_text, kpz_text] at h
  simp only [nameKey_lt, gt_iff_lt]
  exact ⟨h.1, h.2.2⟩

/-- The prefix test: `kpstrncmpz(&x, s)` is zero exactly if the text starts with `s`. -/
theorem C41_prefix (x : Kpstr) (hx : x.Ok) (s : List Byte) : kpstrncmpz x s = 0 ↔ s <+: x.text := by
  have memz : ∀ (a b : List Byte), memcmp b.length a b = 0 → b.length ≤ a.length → b <+: a := by
    intro a
    induction a with
    | nil => intro b _ hl; simp at hl; subst hl; exact List.prefix_refl _
    | cons c a ih =>
      intro b hb hl
      cases b with
      | nil => simp
      | cons d b =>
        simp only [List.length_cons, memcmp] at hb
        split at hb
        · rename_i e
          subst e
          rw [List.cons_prefix_cons]
          exact ⟨rfl, ih b hb (by simpa using hl)⟩
        · rename_i e
          exact absurd (BitVec.eq_of_toNat_eq (by omega)) e
  have lx : x.text.length = x.l := by unfold Kpstr.text; rw [List.length_take]; unfold Kpstr.Ok at hx; omega
  have memz2 : ∀ (b r : List Byte), memcmp b.length (b ++ r) b = 0 := by
    intro b r
    induction b with
    | nil => simp [memcmp]
    | cons c b ih => simpa [memcmp] using ih
  unfold kpstrncmpz kpstrncmp kpz
  dsimp only
  by_cases hlt : x.l < s.length
  · have hno : ¬ s <+: x.text := fun h => by have := h.length_le; omega
    simp only [hlt, if_true, hno, iff_false]
    rw [if_neg (show ¬ (x.l > s.length ∧ s.length < s.length) by omega)]
    split
    · assumption
    · rw [if_pos (by trivial)]
      omega
  · simp only [hlt, if_false, Nat.lt_irrefl, and_false, false_and]
    have hm : memcmp s.length x.s s = memcmp s.length x.text s := by
      rw [memcmp_take, memcmp_take _ x.text]
      unfold Kpstr.text
      rw [List.take_take, Nat.min_eq_left (by omega)]
    rw [hm]
    constructor
    · intro h
      split at h
      · contradiction
      · rename_i hz
        exact memz _ _ (by simpa using hz) (by omega)
    · rintro ⟨r, hr⟩
      have := memz2 s r
      rw [hr] at this
      simp [this]

example : kpstrcmp ⟨[102, 111, 111, 44], 3⟩ ⟨[102, 111, 111, 46], 3⟩ = 0 ∧
    kpstrcmp ⟨[102, 111, 111, 44], 3⟩ ⟨[102, 111, 111, 46], 4⟩ < 0 := by decide

end Verif
