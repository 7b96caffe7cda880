import Verif.Model.MemIter
import Verif.Proof.Mem
/-
The buffered remote reader: representation invariant.
-/
namespace Verif

/-- The buffer holds the target's bytes. -/
def IterOk (m : Mem) (page : Nat) (it : MemIter) : Prop :=
  it.buf.length = page ∧ it.buflen ≤ page ∧ it.base + it.buflen < 2 ^ 64 ∧
    Holds m it.base (it.buf.take it.buflen)

theorem iterOk_init (m : Mem) (page : Nat) : IterOk m page (MemIter.init page) := by
  simp [IterOk, MemIter.init, Holds]

theorem Holds.take {m : Mem} {a : Nat} {bs : List Byte} (h : Holds m a bs) (n : Nat) : Holds m a (bs.take n) := by
  intro k hk
  rw [List.length_take] at hk
  rw [List.getElem_take]
  exact h k (by omega)

theorem Holds.drop {m : Mem} {a : Nat} {bs : List Byte} (h : Holds m a bs) (n : Nat) :
    Holds m (a + n) (bs.drop n) := by
  intro k hk
  rw [List.length_drop] at hk
  rw [List.getElem_drop, Nat.add_assoc]
  exact h (n + k) (by omega)

theorem iterPread_upTo (m : Mem) (buf : List Byte) (lim addr : Nat) (hl : lim ≠ 0)
    (hne : (pread lim m addr buf.length).length ≠ 0) :
    iterPread (.upTo lim) m buf addr =
      ((pread lim m addr buf.length).length,
        pread lim m addr buf.length ++ buf.drop (pread lim m addr buf.length).length) := by
  simp only [iterPread, hl, hne, if_false]

/-- A read that does not hit the -1 path and is not short returns the target's bytes and keeps the
invariant. -/
theorem peek_ok {m : Mem} {page : Nat} {it : MemIter} (hit : IterOk m page it) (lim : Nat) (size addr : Nat)
    (hlim : 0 < lim) (hmap : m addr ≠ none) (hsz : 0 < size) (hsp : size ≤ page)
    (ha : addr + page < 2 ^ 64) {it' : MemIter} {bs : List Byte}
    (h : it.peek (.upTo lim) m size addr = (it', some bs)) :
    IterOk m page it' ∧ bs.length = size ∧ Holds m addr bs := by
  obtain ⟨h1, h2, h3, h4⟩ := hit
  unfold MemIter.peek at h
  split at h
  · rename_i hc
    have hp := pread_spec it.buf.length lim m addr
    have hne : (pread lim m addr it.buf.length).length ≠ 0 := by
      rw [h1]
      obtain ⟨p, rfl⟩ : ∃ p, page = p + 1 := ⟨page - 1, by omega⟩
      unfold pread
      rw [if_neg (by omega)]
      cases hm : m addr with
      | none => exact absurd hm hmap
      | some b => simp
    rw [iterPread_upTo _ _ _ _ (by omega) hne] at h
    simp only at h
    split at h
    · simp at h
    · rename_i hs
      simp only [Prod.mk.injEq, Option.some.injEq] at h
      obtain ⟨hi, hb⟩ := h
      subst hi; subst hb
      generalize hq : pread lim m addr it.buf.length = q at *
      have hlen : (q ++ it.buf.drop q.length).length = page := by
        simp; omega
      refine ⟨⟨hlen, by simp only; omega, by simp only; omega, ?_⟩, ?_, ?_⟩
      · simp only [List.take_left]
        exact hp.2
      · simp only [List.length_take, hlen]; omega
      · have : (q ++ it.buf.drop q.length).take size = q.take size := by
          rw [List.take_append_of_le_length (by omega)]
        rw [this]
        exact hp.2.take size
  · rename_i hc
    simp only [not_or, Nat.not_lt, Prod.mk.injEq, Option.some.injEq] at hc h
    obtain ⟨hi, hb⟩ := h
    subst hi
    rw [Nat.mod_eq_of_lt (by omega), Nat.mod_eq_of_lt h3] at hc
    refine ⟨⟨h1, h2, h3, h4⟩, ?_, ?_⟩
    · rw [← hb]; simp; omega
    · have e : bs = ((it.buf.take it.buflen).drop (addr - it.base)).take size := by
        rw [← hb, List.drop_take, List.take_take]
        congr 1
        omega
      rw [e]
      have hd := (h4.drop (addr - it.base)).take size
      rwa [show it.base + (addr - it.base) = addr by omega] at hd

/-- When the kernel delivers whole pages of mapped memory the read succeeds. -/
theorem peek_succeeds {m : Mem} {page : Nat} {it : MemIter} (hit : IterOk m page it) (lim : Nat) (size addr : Nat)
    (hlim : page ≤ lim) (hmap : Mapped m addr size) (hsz : 0 < size) (hsp : size ≤ page) :
    ∃ it' bs, it.peek (.upTo lim) m size addr = (it', some bs) := by
  obtain ⟨h1, h2, h3, h4⟩ := hit
  unfold MemIter.peek
  split
  · have hge : size ≤ (pread lim m addr it.buf.length).length := by
      rw [h1]
      have key : ∀ (n p l a : Nat), n ≤ p → p ≤ l → Mapped m a n → n ≤ (pread l m a p).length := by
        intro n
        induction n with
        | zero => intros; omega
        | succ n ih =>
          intro p l a hp hl hm
          obtain ⟨p, rfl⟩ : ∃ q, p = q + 1 := ⟨p - 1, by omega⟩
          unfold pread
          rw [if_neg (by omega)]
          have h0 := hm 0 (by omega)
          simp only [Nat.add_zero] at h0
          cases hs : m a with
          | none => exact absurd hs h0
          | some b =>
            simp only [List.length_cons]
            have := ih p (l - 1) (a + 1) (by omega) (by omega) (by
              intro k hk
              have := hm (k + 1) (by omega)
              rwa [show a + 1 + k = a + (k + 1) by omega])
            omega
      exact key size page lim addr hsp hlim hmap
    rw [iterPread_upTo _ _ _ _ (by omega) (by omega)]
    simp only
    rw [if_neg (by omega)]
    exact ⟨_, _, rfl⟩
  · exact ⟨_, _, rfl⟩

end Verif
