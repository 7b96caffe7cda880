import Verif.Model.Hunk
import Verif.Spec.Memory
/-
Helper lemmas about remote memory accesses.
-/
namespace Verif

theorem Mem.set_apply (m : Mem) (a x : Addr) (v : Option Byte) :
    m.set a v x = if x = a then v else m x := rfl

/-- Exact effect of `pwrite`. -/
theorem pwrite_spec (bs : List Byte) : ∀ (lim : Nat) (m : Mem) (dst : Addr),
    (pwrite lim m dst bs).2 ≤ bs.length ∧
    (∀ x, InRange x dst (pwrite lim m dst bs).2 →
      m x ≠ none ∧ (pwrite lim m dst bs).1 x = bs[x - dst]?) ∧
    (∀ x, ¬ InRange x dst (pwrite lim m dst bs).2 → (pwrite lim m dst bs).1 x = m x) := by
  induction bs with
  | nil => intro lim m dst; simp [pwrite, InRange]
  | cons b bs ih =>
    intro lim m dst
    unfold pwrite
    split
    · simp [InRange]; omega
    · rename_i h
      simp only [not_or] at h
      obtain ⟨h1, h2, h3⟩ := ih (lim - 1) (m.set dst (some b)) (dst + 1)
      refine ⟨by simp; omega, ?_, ?_⟩
      · intro x hx
        simp only [InRange] at *
        by_cases hd : x = dst
        · subst hd
          refine ⟨h.2, ?_⟩
          rw [h3 x (by omega)]
          simp [Mem.set]
        · obtain ⟨ha, hb⟩ := h2 x (by omega)
          refine ⟨by simpa [Mem.set, hd] using ha, ?_⟩
          rw [hb]
          have : x - dst = (x - (dst + 1)) + 1 := by omega
          rw [this, List.getElem?_cons_succ]
      · intro x hx
        simp only [InRange] at *
        rw [h3 x (by omega)]
        have : x ≠ dst := by omega
        simp [Mem.set, this]

theorem pwrite_dom (lim : Nat) (m : Mem) (dst : Addr) (bs : List Byte) (x : Addr) :
    (pwrite lim m dst bs).1 x = none ↔ m x = none := by
  obtain ⟨h1, h2, h3⟩ := pwrite_spec bs lim m dst
  by_cases hx : InRange x dst (pwrite lim m dst bs).2
  · have ⟨ha, hb⟩ := h2 x hx
    rw [hb]
    simp only [InRange] at hx
    constructor
    · intro h
      rw [List.getElem?_eq_none_iff] at h; omega
    · intro h; exact absurd h ha
  · rw [h3 x hx]

/-- A write changes nothing outside the requested range, whatever the kernel does. -/
theorem memWrite_frame (lim : Nat) (m : Mem) (dst : Addr) (bs : List Byte) (x : Addr)
    (hx : ¬ InRange x dst bs.length) : (memWrite lim m dst bs).1 x = m x := by
  obtain ⟨h1, h2, h3⟩ := pwrite_spec bs lim m dst
  apply h3
  simp only [InRange] at *; omega

theorem memWrite_dom (lim : Nat) (m : Mem) (dst : Addr) (bs : List Byte) (x : Addr) :
    (memWrite lim m dst bs).1 x = none ↔ m x = none := pwrite_dom lim m dst bs x

/-- A successful write stores exactly the bytes. -/
theorem memWrite_ok (lim : Nat) (m : Mem) (dst : Addr) (bs : List Byte)
    (hok : (memWrite lim m dst bs).2 = true) :
    Holds (memWrite lim m dst bs).1 dst bs ∧ Mapped m dst bs.length := by
  obtain ⟨h1, h2, h3⟩ := pwrite_spec bs lim m dst
  have hn : (pwrite lim m dst bs).2 = bs.length := by simpa [memWrite] using hok
  constructor
  · intro k hk
    have := (h2 (dst + k) (by simp only [InRange]; omega)).2
    simp only [memWrite]
    rw [this]
    have e : dst + k - dst = k := by omega
    rw [e, List.getElem?_eq_getElem hk]
  · intro k hk
    exact (h2 (dst + k) (by simp only [InRange]; omega)).1

theorem pread_spec (n : Nat) : ∀ (lim : Nat) (m : Mem) (src : Addr),
    (pread lim m src n).length ≤ n ∧ Holds m src (pread lim m src n) := by
  induction n with
  | zero => intro lim m src; simp [pread, Holds]
  | succ n ih =>
    intro lim m src
    unfold pread
    split
    · simp [Holds]
    · cases hm : m src with
      | none => simp [Holds]
      | some b =>
        obtain ⟨h1, h2⟩ := ih (lim - 1) m (src + 1)
        refine ⟨by simp; omega, ?_⟩
        intro k hk
        cases k with
        | zero => simp [hm]
        | succ k =>
          have := h2 k (by simpa using hk)
          simp only [List.getElem_cons_succ]
          rw [← this]; congr 1; omega

theorem memRead_ok (lim : Nat) (m : Mem) (src size : Nat) (bs : List Byte)
    (h : memRead lim m src size = some bs) : bs.length = size ∧ Holds m src bs := by
  unfold memRead at h
  simp only at h
  split at h
  · rename_i hl
    injection h with h
    subst h
    exact ⟨hl, (pread_spec size lim m src).2⟩
  · contradiction

/-- A read of mapped memory succeeds when the kernel delivers enough. -/
theorem pread_full (n : Nat) : ∀ (lim : Nat) (m : Mem) (src : Addr), n ≤ lim → Mapped m src n →
    (pread lim m src n).length = n := by
  induction n with
  | zero => intro lim m src _ _; simp [pread]
  | succ n ih =>
    intro lim m src hl hm
    unfold pread
    rw [if_neg (by omega)]
    have h0 := hm 0 (by omega)
    simp only [Nat.add_zero] at h0
    cases hs : m src with
    | none => exact absurd hs h0
    | some b =>
      simp only [List.length_cons, Nat.add_right_cancel_iff]
      apply ih _ _ _ (by omega)
      intro k hk
      have := hm (k + 1) (by omega)
      rwa [show src + 1 + k = src + (k + 1) by omega]

theorem memCpy_frame (rlim wlim : Nat) (m : Mem) (dst src size : Nat) (x : Addr)
    (hx : ¬ InRange x dst size) : (memCpy rlim wlim m dst src size).1 x = m x := by
  unfold memCpy
  cases h : memRead rlim m src size with
  | none => rfl
  | some bs =>
    obtain ⟨hl, _⟩ := memRead_ok _ _ _ _ _ h
    exact memWrite_frame _ _ _ _ _ (by rw [hl]; exact hx)

theorem memCpy_dom (rlim wlim : Nat) (m : Mem) (dst src size : Nat) (x : Addr) :
    (memCpy rlim wlim m dst src size).1 x = none ↔ m x = none := by
  unfold memCpy
  cases h : memRead rlim m src size with
  | none => rfl
  | some bs => exact memWrite_dom _ _ _ _ _

theorem memCpy_ok (rlim wlim : Nat) (m : Mem) (dst src size : Nat)
    (hok : (memCpy rlim wlim m dst src size).2 = true) :
    ∀ k, k < size → (memCpy rlim wlim m dst src size).1 (dst + k) = m (src + k) ∧ m (src + k) ≠ none := by
  unfold memCpy at *
  cases h : memRead rlim m src size with
  | none => simp [h] at hok
  | some bs =>
    simp only [h] at hok ⊢
    obtain ⟨hl, hb⟩ := memRead_ok _ _ _ _ _ h
    obtain ⟨hw, _⟩ := memWrite_ok _ _ _ _ hok
    intro k hk
    rw [hw k (by omega), hb k (by omega)]
    simp

/-- A write that the kernel does not cut, to mapped memory, succeeds. -/
theorem pwrite_full (bs : List Byte) : ∀ (lim : Nat) (m : Mem) (dst : Nat), bs.length ≤ lim →
    Mapped m dst bs.length → (pwrite lim m dst bs).2 = bs.length := by
  induction bs with
  | nil => intros; rfl
  | cons b bs ih =>
    intro lim m dst hlim hmap
    unfold pwrite
    simp only [List.length_cons] at hlim hmap
    have h0 := hmap 0 (by omega)
    rw [Nat.add_zero] at h0
    rw [if_neg (by
      intro hc
      rcases hc with hc | hc
      · omega
      · exact h0 hc)]
    simp only [List.length_cons]
    rw [ih (lim - 1) _ (dst + 1) (by omega)]
    intro k hk
    rw [Mem.set_apply]
    split
    · simp
    · have := hmap (k + 1) (by omega)
      rwa [show dst + 1 + k = dst + (k + 1) by omega]

theorem memWrite_full {bs : List Byte} {lim : Nat} {m : Mem} {dst : Nat} (hl : bs.length ≤ lim)
    (hm : Mapped m dst bs.length) : (memWrite lim m dst bs).2 = true := by
  simp [memWrite, pwrite_full bs lim m dst hl hm]

theorem memRead_full {lim : Nat} {m : Mem} {a n : Nat} (hl : n ≤ lim) (hm : Mapped m a n) :
    ∃ bs, memRead lim m a n = some bs ∧ bs.length = n ∧ Holds m a bs := by
  have := pread_full n lim m a hl hm
  refine ⟨pread lim m a n, ?_, this, (pread_spec n lim m a).2⟩
  unfold memRead
  rw [if_pos this]

end Verif
