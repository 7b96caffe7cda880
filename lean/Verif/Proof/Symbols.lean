import Verif.Spec.Elf
/-
`strcmp` is a total order on C strings; binary search and the cut of the sorted table.
-/
namespace Verif

theorem byte_pos {b : Byte} (h : b ≠ 0#8) : 0 < b.toNat := by
  have : b.toNat ≠ 0 := fun hc => h (by apply BitVec.eq_of_toNat_eq; simpa using hc)
  omega

theorem strcmp_neg : ∀ a b : CStr, strcmp a b = - strcmp b a
  | [], [] => rfl
  | [], b :: _ => by simp [strcmp]
  | a :: _, [] => by simp [strcmp]
  | a :: as, b :: bs => by
    unfold strcmp
    by_cases h : a = b
    · rw [if_pos h, if_pos h.symm]; exact strcmp_neg as bs
    · rw [if_neg h, if_neg (Ne.symm h)]; omega

theorem strcmp_self : ∀ a : CStr, strcmp a a = 0
  | [] => rfl
  | a :: as => by unfold strcmp; rw [if_pos rfl]; exact strcmp_self as

theorem strcmp_eq_zero : ∀ a b : CStr, 0#8 ∉ a → 0#8 ∉ b → strcmp a b = 0 → a = b
  | [], [], _, _, _ => rfl
  | [], b :: bs, _, hb, h => by
    have := byte_pos (b := b) (fun hc => hb (by simp [hc]))
    simp only [strcmp] at h; omega
  | a :: as, [], ha, _, h => by
    have := byte_pos (b := a) (fun hc => ha (by simp [hc]))
    simp only [strcmp] at h; omega
  | a :: as, b :: bs, ha, hb, h => by
    unfold strcmp at h
    by_cases hab : a = b
    · rw [if_pos hab] at h
      rw [hab, strcmp_eq_zero as bs (fun hc => ha (by simp [hc])) (fun hc => hb (by simp [hc])) h]
    · rw [if_neg hab] at h
      exact absurd (BitVec.eq_of_toNat_eq (by omega)) hab

theorem strcmp_trans : ∀ a b c : CStr, 0#8 ∉ a → 0#8 ∉ b → 0#8 ∉ c → strcmp a b ≤ 0 → strcmp b c ≤ 0 → strcmp a c ≤ 0
  | [], _, [], _, _, _, _, _ => by simp [strcmp]
  | [], _, c :: cs, _, _, _, _, _ => by simp only [strcmp]; omega
  | a :: as, [], _, ha, _, _, h, _ => by
    have := byte_pos (b := a) (fun hc => ha (by simp [hc]))
    simp only [strcmp] at h; omega
  | a :: as, b :: bs, [], _, hb, _, _, h => by
    have := byte_pos (b := b) (fun hc => hb (by simp [hc]))
    simp only [strcmp] at h; omega
  | a :: as, b :: bs, c :: cs, ha, hb, hc, h1, h2 => by
    unfold strcmp at h1 h2 ⊢
    by_cases hab : a = b
    · subst hab
      rw [if_pos rfl] at h1
      by_cases hac : a = c
      · rw [if_pos hac] at h2 ⊢
        exact strcmp_trans as bs cs (fun h => ha (by simp [h])) (fun h => hb (by simp [h])) (fun h => hc (by simp [h])) h1 h2
      · rw [if_neg hac] at h2 ⊢; exact h2
    · rw [if_neg hab] at h1
      have n1 : a.toNat ≠ b.toNat := fun h => hab (BitVec.eq_of_toNat_eq h)
      by_cases hbc : b = c
      · subst hbc; rw [if_neg hab]; exact h1
      · rw [if_neg hbc] at h2
        have n2 : b.toNat ≠ c.toNat := fun h => hbc (BitVec.eq_of_toNat_eq h)
        have : a ≠ c := fun h => by subst h; omega
        rw [if_neg this]; omega

theorem getD_mem {names : List CStr} {i : Nat} (h : i < names.length) : names.getD i [] ∈ names := by
  rw [List.getD_eq_getElem?_getD, List.getElem?_eq_getElem h]
  exact List.getElem_mem h

theorem sorted_getD {names : List CStr} (hs : names.Pairwise fun a b => strcmp a b ≤ 0) {i j : Nat}
    (hij : i < j) (hj : j < names.length) : strcmp (names.getD i []) (names.getD j []) ≤ 0 := by
  rw [List.getD_eq_getElem?_getD, List.getElem?_eq_getElem (by omega : i < names.length),
    List.getD_eq_getElem?_getD, List.getElem?_eq_getElem hj]
  exact List.pairwise_iff_getElem.1 hs i j (by omega) hj hij

/-- Binary search over a sorted list: what is found is the key, and nothing found means it is not
there. -/
theorem bsearchName_spec (names : List CStr) (key : CStr) (hn : ∀ x ∈ names, 0#8 ∉ x) (hk : 0#8 ∉ key)
    (hs : names.Pairwise fun a b => strcmp a b ≤ 0) (l u : Nat) (hu : u ≤ names.length)
    (hlo : ∀ i < l, names.getD i [] ≠ key) (hhi : ∀ i, u ≤ i → i < names.length → names.getD i [] ≠ key) :
    match bsearchName names key l u with
    | some i => i < names.length ∧ names.getD i [] = key
    | none => key ∉ names := by
  fun_induction bsearchName names key l u with
  | case1 l u hlt idx c hc ih =>
    apply ih (by omega) hlo
    intro i hi1 hi2 he
    -- names[i] ≥ names[idx] > key
    have hidx : idx < names.length := by omega
    rcases Nat.lt_or_ge idx i with h | h
    · have h1 := sorted_getD hs h hi2
      rw [he, strcmp_neg] at h1
      omega
    · have : i = idx := by omega
      rw [this] at he
      have h0 : c = 0 := by
        show strcmp key (names.getD idx []) = 0
        rw [he, strcmp_self]
      omega
  | case2 l u hlt idx c h1 h2 ih =>
    apply ih hu _ hhi
    intro i hi he
    have hidx : idx < names.length := by omega
    rcases Nat.lt_or_ge i idx with h | h
    · have h3 := sorted_getD hs h hidx
      rw [he] at h3
      omega
    · have : i = idx := by omega
      rw [this] at he
      have h0 : c = 0 := by
        show strcmp key (names.getD idx []) = 0
        rw [he, strcmp_self]
      omega
  | case3 l u hlt idx c h1 h2 =>
    have hidx : idx < names.length := by omega
    refine ⟨hidx, ?_⟩
    have h0 : strcmp key (names.getD idx []) = 0 := by omega
    exact (strcmp_eq_zero _ _ hk (hn _ (getD_mem hidx)) h0).symm
  | case4 l u hlt =>
    intro hm
    obtain ⟨i, hi, he⟩ := List.getElem_of_mem hm
    have hd : names.getD i [] = key := by
      rw [List.getD_eq_getElem?_getD, List.getElem?_eq_getElem hi]; exact he
    rcases Nat.lt_or_ge i l with h | h
    · exact hlo i h hd
    · exact hhi i (by omega) hi hd

theorem mem_takeWhile_of_sorted {p : DynSym → Bool} : ∀ {l : List DynSym},
    (l.Pairwise fun a b => p b = true → p a = true) → ∀ s, s ∈ l.takeWhile p ↔ s ∈ l ∧ p s = true
  | [], _, s => by simp
  | x :: l, h, s => by
    have h' := List.pairwise_cons.1 h
    by_cases hx : p x = true
    · rw [List.takeWhile_cons_of_pos hx, List.mem_cons, mem_takeWhile_of_sorted h'.2 s, List.mem_cons]
      constructor
      · rintro (rfl | ⟨h1, h2⟩)
        · exact ⟨Or.inl rfl, hx⟩
        · exact ⟨Or.inr h1, h2⟩
      · rintro ⟨rfl | h1, h2⟩
        · exact Or.inl rfl
        · exact Or.inr ⟨h1, h2⟩
    · rw [List.takeWhile_cons_of_neg hx]
      simp only [List.not_mem_nil, List.mem_cons, false_iff, not_and]
      rintro (rfl | h1) h2
      · exact hx h2
      · exact hx (h'.1 s h1 h2)

/-- The table kept after sorting and cutting holds exactly the defined symbols, sorted by name. -/
theorem loadDynsym_spec (qsort : List DynSym → List DynSym) (table : List DynSym)
    (hq : SortedBy symNameCmp (qsort table) table) :
    (∀ s, s ∈ loadDynsym qsort table ↔ s ∈ table ∧ s.isUndef = false) ∧
    ((loadDynsym qsort table).map DynSym.name).Pairwise fun a b => strcmp a b ≤ 0 := by
  have hsort : (qsort table).Pairwise fun a b => (!b.isUndef) = true → (!a.isUndef) = true := by
    apply hq.2.imp
    intro a b h hb
    unfold symNameCmp at h
    cases ha : a.isUndef
    · rfl
    · simp only [Bool.not_eq_true'] at hb
      rw [ha, hb] at h
      simp at h
  constructor
  · intro s
    unfold loadDynsym
    rw [mem_takeWhile_of_sorted hsort, hq.1.mem_iff]
    simp
  · rw [List.pairwise_map]
    have hsub : (loadDynsym qsort table).Sublist (qsort table) := List.takeWhile_sublist _
    have hpw := hq.2.sublist hsub
    have hdef : ∀ s ∈ loadDynsym qsort table, s.isUndef = false := by
      intro s hs
      have := (mem_takeWhile_of_sorted hsort s).1 hs
      simpa using this.2
    apply List.Pairwise.imp_of_mem (R := fun a b => symNameCmp a b ≤ 0) _ hpw
    intro a b ha hb h
    unfold symNameCmp at h
    rw [hdef a ha, hdef b hb] at h
    simpa using h

end Verif
