import Verif.Model.Layout
/-
Lemmas about byte fields and rounding.
-/
namespace Verif

theorem leBytes_length (n : Nat) : ∀ v, (leBytes n v).length = n := by
  induction n with
  | zero => intro v; rfl
  | succ n ih => intro v; simp [leBytes, ih]

theorem leVal_leBytes (n : Nat) : ∀ v, leVal (leBytes n v) = v % 256 ^ n := by
  induction n with
  | zero => intro v; simp [leBytes, leVal, Nat.mod_one]
  | succ n ih =>
    intro v
    simp only [leBytes, leVal, ih, BitVec.toNat_ofNat]
    have h : 256 ^ (n + 1) = 256 * 256 ^ n := by rw [Nat.pow_succ, Nat.mul_comm]
    rw [h, Nat.mod_mul]

theorem leVal_lt (bs : List Byte) : leVal bs < 256 ^ bs.length := by
  induction bs with
  | nil => simp [leVal]
  | cons b bs ih =>
    simp only [leVal, List.length_cons, Nat.pow_succ]
    have := b.isLt
    omega

theorem setField_length (bs : List Byte) (off n v : Nat) (h : off + n ≤ bs.length) :
    (setField bs off n v).length = bs.length := by
  simp only [setField, List.length_append, List.length_take, List.length_drop, leBytes_length]
  omega

/-- Reading back the field that was stored. -/
theorem getField_setField (bs : List Byte) (off n v : Nat) (h : off + n ≤ bs.length) :
    getField (setField bs off n v) off n = some (v % 256 ^ n) := by
  unfold getField
  rw [setField_length _ _ _ _ h, if_pos h]
  have h1 : (bs.take off).length = off := by simp; omega
  have : ((setField bs off n v).drop off).take n = leBytes n v := by
    unfold setField
    rw [List.append_assoc, List.drop_append_of_le_length (by omega), List.drop_of_length_le (by omega),
      List.nil_append, List.take_append_of_le_length (by simp [leBytes_length]),
      List.take_of_length_le (by simp [leBytes_length])]
  rw [this, leVal_leBytes]

theorem setField_getElem? (bs : List Byte) (off n v k : Nat) (h : off + n ≤ bs.length)
    (hk : k < off ∨ off + n ≤ k) : (setField bs off n v)[k]? = bs[k]? := by
  unfold setField
  rcases hk with hk | hk
  · rw [List.append_assoc, List.getElem?_append_left (by simp; omega), List.getElem?_take, if_pos hk]
  · rw [List.getElem?_append_right (by simp [leBytes_length]; omega), List.getElem?_drop]
    simp only [List.length_append, List.length_take, leBytes_length]
    congr 1
    omega

/-- Storing a field leaves disjoint fields alone. -/
theorem getField_setField_ne (bs : List Byte) (off n v off' n' : Nat) (h : off + n ≤ bs.length)
    (hd : off' + n' ≤ off ∨ off + n ≤ off') :
    getField (setField bs off n v) off' n' = getField bs off' n' := by
  unfold getField
  rw [setField_length _ _ _ _ h]
  split
  · congr 2
    apply List.ext_getElem?
    intro k
    rw [List.getElem?_take, List.getElem?_take]
    split
    · rw [List.getElem?_drop, List.getElem?_drop]
      apply setField_getElem? _ _ _ _ _ h
      omega
    · rfl
  · rfl

theorem le_roundUp (x m : Nat) (hm : 0 < m) : x ≤ roundUp x m := by
  unfold roundUp
  have := Nat.div_add_mod (x + m - 1) m
  have := Nat.mod_lt (x + m - 1) hm
  have := Nat.mul_comm m ((x + m - 1) / m)
  omega

theorem roundUp_lt (x m : Nat) (hm : 0 < m) : roundUp x m < x + m := by
  unfold roundUp
  have := Nat.div_mul_le_self (x + m - 1) m
  omega

theorem roundUp_mod (x m : Nat) : roundUp x m % m = 0 := by
  unfold roundUp; simp

theorem roundUp_of_mod (x m : Nat) (hm : 0 < m) (h : x % m = 0) : roundUp x m = x := by
  unfold roundUp
  obtain ⟨k, rfl⟩ := Nat.dvd_of_mod_eq_zero h
  have : (m * k + m - 1) / m = k := by
    rw [Nat.add_sub_assoc (by omega), Nat.mul_add_div hm]
    have : (m - 1) / m = 0 := Nat.div_eq_of_lt (by omega)
    omega
  rw [this, Nat.mul_comm]

end Verif
