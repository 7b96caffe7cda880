import Verif.Model.Ptrace
import Verif.Proof.MemIter
/-
Lemmas about ptrace writes, breakpoints and remote calls.
-/
namespace Verif

/-- What a partial write may leave behind: outside the range nothing changed, inside it every byte is old
or new. -/
def PartlyWritten (m m' : Mem) (dst : Addr) (bs : List Byte) : Prop :=
  (∀ x, ¬ InRange x dst bs.length → m' x = m x) ∧
  (∀ k (h : k < bs.length), m' (dst + k) = m (dst + k) ∨ m' (dst + k) = some bs[k])

theorem memWrite_partly (lim : Nat) (m : Mem) (dst : Addr) (bs : List Byte) :
    PartlyWritten m (memWrite lim m dst bs).1 dst bs := by
  refine ⟨fun x hx => memWrite_frame lim m dst bs x hx, ?_⟩
  intro k hk
  obtain ⟨h1, h2, h3⟩ := pwrite_spec bs lim m dst
  by_cases hx : InRange (dst + k) dst (pwrite lim m dst bs).2
  · right
    have := (h2 _ hx).2
    simp only [memWrite]
    rw [this, show dst + k - dst = k by omega, List.getElem?_eq_getElem hk]
  · left
    exact h3 _ hx

theorem memWritePtrace_spec (lims : Nat → Nat) (plim : Nat) : ∀ (n k : Nat) (m : Mem) (dst : Addr) (bs : List Byte),
    bs.length = n →
    PartlyWritten m (memWritePtrace lims plim k m dst bs).1 dst bs ∧
    ((memWritePtrace lims plim k m dst bs).2 = true → Holds (memWritePtrace lims plim k m dst bs).1 dst bs) := by
  intro n
  induction n using Nat.strongRecOn with
  | ind n ih =>
    intro k m dst bs hn
    rw [memWritePtrace]
    split
    · rename_i h8
      have hp := memWrite_partly (lims k) m dst (bs.take 8)
      have hok := memWrite_ok (lims k) m dst (bs.take 8)
      have hlen : (bs.take 8).length = 8 := by simp; omega
      unfold poke
      generalize memWrite (lims k) m dst (bs.take 8) = w at *
      obtain ⟨hp1, hp2⟩ := hp
      rw [hlen] at hp1
      dsimp only
      split
      · refine ⟨⟨fun x hx => hp1 x (by simp only [InRange] at *; omega), ?_⟩, by simp⟩
        intro j hj
        by_cases hj8 : j < 8
        · have := hp2 j (by omega)
          rwa [List.getElem_take] at this
        · left; exact hp1 _ (by simp only [InRange]; omega)
      · rename_i hw
        have hw' : w.2 = true := by simpa using hw
        obtain ⟨hh, -⟩ := hok hw'
        have hd : (bs.drop 8).length = n - 8 := by simp; omega
        obtain ⟨⟨f1, f2⟩, f3⟩ := ih (n - 8) (by omega) (k + 1) w.1 (dst + 8) (bs.drop 8) hd
        generalize memWritePtrace lims plim (k + 1) w.1 (dst + 8) (bs.drop 8) = r at *
        rw [hd] at f1
        have lo : ∀ j (hj : j < bs.length), j < 8 → r.1 (dst + j) = some bs[j] := by
          intro j hj hj8
          rw [f1 _ (by simp only [InRange]; omega)]
          have := hh j (by omega)
          rwa [List.getElem_take] at this
        refine ⟨⟨?_, ?_⟩, ?_⟩
        · intro x hx
          rw [f1 x (by simp only [InRange] at *; omega), hp1 x (by simp only [InRange] at *; omega)]
        · intro j hj
          by_cases hj8 : j < 8
          · right; exact lo j hj hj8
          · have := f2 (j - 8) (by omega)
            rw [List.getElem_drop] at this
            simp only [show dst + 8 + (j - 8) = dst + j by omega, show 8 + (j - 8) = j by omega] at this
            rcases this with h | h
            · left; rw [h, hp1 _ (by simp only [InRange]; omega)]
            · right; exact h
        · intro hr j hj
          by_cases hj8 : j < 8
          · exact lo j hj hj8
          · have := f3 hr (j - 8) (by omega)
            rw [List.getElem_drop] at this
            simpa only [show dst + 8 + (j - 8) = dst + j by omega, show 8 + (j - 8) = j by omega] using this
    · rename_i h8
      split
      · rename_i h0
        refine ⟨⟨fun _ _ => rfl, fun _ _ => Or.inl rfl⟩, ?_⟩
        intro _ j hj; omega
      · rename_i h0
        cases hr : memRead plim m dst 8 with
        | none =>
          exact ⟨⟨fun _ _ => rfl, fun _ _ => Or.inl rfl⟩, by simp⟩
        | some old =>
          obtain ⟨ol, oh⟩ := memRead_ok _ _ _ _ _ hr
          dsimp only
          unfold poke
          have hp := memWrite_partly (lims k) m dst (bs ++ old.drop bs.length)
          have hok := memWrite_ok (lims k) m dst (bs ++ old.drop bs.length)
          have hl : (bs ++ old.drop bs.length).length = 8 := by simp; omega
          generalize memWrite (lims k) m dst (bs ++ old.drop bs.length) = w at *
          obtain ⟨hp1, hp2⟩ := hp
          rw [hl] at hp1
          refine ⟨⟨?_, ?_⟩, ?_⟩
          · intro x hx
            by_cases hx8 : InRange x dst 8
            · simp only [InRange] at hx hx8
              have := hp2 (x - dst) (by omega)
              rw [List.getElem_append_right (by omega), List.getElem_drop] at this
              have ho := oh (x - dst) (by omega)
              simp only [show dst + (x - dst) = x by omega] at this ho
              rcases this with h | h
              · exact h
              · rw [h, ho]
                congr 2
                omega
            · exact hp1 x hx8
          · intro j hj
            have := hp2 j (by omega)
            rwa [List.getElem_append_left hj] at this
          · intro hw j hj
            have := (hok hw).1 j (by omega)
            rwa [List.getElem_append_left hj] at this

/-! ### Breakpoints -/

/-- `x` is a byte of one of the breakpoints. -/
def InBreaks (len : Nat) (bs : List (Nat × List Byte)) (x : Nat) : Prop := ∃ b ∈ bs, InRange x b.1 len

/-- The installed breakpoints remember the code of `m0` and nothing else changed. -/
structure BreaksOk (len : Nat) (m0 m : Mem) (bs : List (Nat × List Byte)) : Prop where
  saved : ∀ b ∈ bs, b.2.length = len ∧ Holds m0 b.1 b.2
  frame : ∀ x, ¬ InBreaks len bs x → m x = m0 x
  dom : ∀ x, m x = none ↔ m0 x = none

/-- The two addresses are equal or their breakpoints do not overlap. -/
def BreakApart (len u v : Nat) : Prop := u = v ∨ u + len ≤ v ∨ v + len ≤ u

theorem installBreaks_ok (brk : List Byte) (fs : Nat → BreakFault) (m0 : Mem)
    (hfs : ∀ k, (fs k).wlim = 0 ∨ brk.length ≤ (fs k).wlim) : ∀ (us : List Nat) (m : Mem) (bs : List (Nat × List Byte)),
    BreaksOk brk.length m0 m bs →
    (∀ u ∈ us, u ≠ 0 → ∀ v ∈ us, v ≠ 0 → BreakApart brk.length u v) →
    (∀ b ∈ bs, ∀ u ∈ us, u ≠ 0 → BreakApart brk.length b.1 u) →
    BreaksOk brk.length m0 (installBreaks brk fs m bs us).1 (installBreaks brk fs m bs us).2.1 ∧
    (∀ b ∈ (installBreaks brk fs m bs us).2.1, b ∈ bs ∨ (b.1 ∈ us ∧ b.1 ≠ 0)) := by
  intro us
  induction us with
  | nil => intro m bs H _ _; exact ⟨H, fun b hb => Or.inl hb⟩
  | cons u us ih =>
    intro m bs H hpw hbu
    have skip : BreaksOk brk.length m0 (installBreaks brk fs m bs us).1 (installBreaks brk fs m bs us).2.1 ∧
        (∀ b ∈ (installBreaks brk fs m bs us).2.1, b ∈ bs ∨ (b.1 ∈ u :: us ∧ b.1 ≠ 0)) := by
      have := ih m bs H (fun a ha h0 b hb => hpw a (by simp [ha]) h0 b (by simp [hb]))
        (fun b hb v hv => hbu b hb v (by simp [hv]))
      exact ⟨this.1, fun b hb => (this.2 b hb).imp id fun h => ⟨by simp [h.1], h.2⟩⟩
    unfold installBreaks
    split
    · exact skip
    · rename_i hu0
      split
      · exact skip
      · rename_i hany
        have hnot : ∀ b ∈ bs, b.1 ≠ u := by
          intro b hb hbe
          apply hany
          rw [List.any_eq_true]
          exact ⟨b, hb, by simp [hbe]⟩
        have hapart : ∀ b ∈ bs, b.1 + brk.length ≤ u ∨ u + brk.length ≤ b.1 := by
          intro b hb
          have := hbu b hb u (by simp) hu0
          have := hnot b hb
          unfold BreakApart at *; omega
        cases hr : memRead (fs bs.length).rlim m u brk.length with
        | none => exact ⟨H, fun b hb => Or.inl hb⟩
        | some orig =>
          obtain ⟨hl, hh⟩ := memRead_ok _ _ _ _ _ hr
          dsimp only
          have hfr := memWrite_frame (fs bs.length).wlim m u brk
          have hdom := memWrite_dom (fs bs.length).wlim m u brk
          have horig : Holds m0 u orig := by
            intro k hk
            rw [← H.frame, hh k hk]
            rintro ⟨b, hb, hx⟩
            have := hapart b hb
            simp only [InRange] at hx; omega
          split
          · rename_i hw
            refine ⟨⟨H.saved, ?_, fun x => (hdom x).trans (H.dom x)⟩, fun b hb => Or.inl hb⟩
            -- the write failed although the range is mapped: the kernel wrote nothing
            have hz : (fs bs.length).wlim = 0 := by
              rcases hfs bs.length with h | h
              · exact h
              · exfalso
                have hm : Mapped m u brk.length := by
                  intro k hk
                  rw [hh k (by omega)]; simp
                rw [memWrite_full h hm] at hw
                simp at hw
            intro x hx
            rw [hz]
            have : (memWrite 0 m u brk).1 = m := by
              unfold memWrite; cases brk <;> simp [pwrite]
            rw [this]
            exact H.frame x hx
          · rename_i hw
            have H' : BreaksOk brk.length m0 (memWrite (fs bs.length).wlim m u brk).1 (bs ++ [(u, orig)]) := by
              refine ⟨?_, ?_, fun x => (hdom x).trans (H.dom x)⟩
              · intro b hb
                simp only [List.mem_append, List.mem_cons, List.not_mem_nil, or_false] at hb
                rcases hb with hb | rfl
                · exact H.saved b hb
                · exact ⟨hl, horig⟩
              · intro x hx
                rw [hfr x, H.frame x]
                · rintro ⟨b, hb, hxb⟩
                  exact hx ⟨b, by simp [hb], hxb⟩
                · intro hxb
                  exact hx ⟨(u, orig), by simp, hxb⟩
            have := ih _ _ H' (fun a ha h0 b hb => hpw a (by simp [ha]) h0 b (by simp [hb])) (by
              intro b hb v hv hv0
              simp only [List.mem_append, List.mem_cons, List.not_mem_nil, or_false] at hb
              rcases hb with hb | rfl
              · exact hbu b hb v (by simp [hv]) hv0
              · exact hpw u (by simp) hu0 v (by simp [hv]) hv0)
            refine ⟨this.1, fun b hb => ?_⟩
            rcases this.2 b hb with h | h
            · simp only [List.mem_append, List.mem_cons, List.not_mem_nil, or_false] at h
              rcases h with h | rfl
              · exact Or.inl h
              · exact Or.inr ⟨by simp, hu0⟩
            · exact Or.inr ⟨by simp [h.1], h.2⟩

/-- Restoring puts back the saved bytes and touches nothing else. -/
theorem restoreBreaks_spec (lims : Nat → Nat) (len : Nat) (m0 : Mem) (hl : ∀ n, len ≤ lims n) :
    ∀ (bs : List (Nat × List Byte)) (m : Mem) (n : Nat) (ok : Bool),
    (∀ b ∈ bs, b.2.length = len ∧ Holds m0 b.1 b.2) →
    (∀ b ∈ bs, Mapped m b.1 len) →
    ∀ x, (InBreaks len bs x → (restoreBreaks lims m n bs ok).1 x = m0 x) ∧
      (¬ InBreaks len bs x → (restoreBreaks lims m n bs ok).1 x = m x) := by
  intro bs
  induction bs with
  | nil => intro m n ok _ _ x; exact ⟨fun ⟨b, hb, _⟩ => by simp at hb, fun _ => rfl⟩
  | cons b bs ih =>
    intro m n ok hs hmap x
    obtain ⟨u, orig⟩ := b
    unfold restoreBreaks
    dsimp only
    have hfr := memWrite_frame (lims n) m u orig
    have hdom := memWrite_dom (lims n) m u orig
    obtain ⟨hlen, hh⟩ := hs (u, orig) (by simp)
    simp only at hlen hh
    have hw : (memWrite (lims n) m u orig).2 = true := by
      have hm := hmap (u, orig) (by simp)
      exact memWrite_full (by have := hl n; omega) (by rw [hlen]; exact hm)
    obtain ⟨hst, -⟩ := memWrite_ok _ _ _ _ hw
    have := ih (memWrite (lims n) m u orig).1 (n + 1) (memWrite (lims n) m u orig).2
      (fun b hb => hs b (by simp [hb])) (by
        intro b hb k hk hc
        exact hmap b (by simp [hb]) k hk ((hdom _).mp hc)) x
    constructor
    · rintro ⟨b, hb, hx⟩
      by_cases hr : InBreaks len bs x
      · exact this.1 hr
      · rw [this.2 hr]
        have hbe : b = (u, orig) := by
          rcases List.mem_cons.mp hb with h | h
          · exact h
          · exact absurd ⟨b, h, hx⟩ hr
        subst hbe
        simp only [InRange] at hx
        have e1 := hst (x - u) (by omega)
        have e2 := hh (x - u) (by omega)
        rw [show u + (x - u) = x by omega] at e1 e2
        rw [e1, e2]
    · intro hx
      rw [this.2 (fun ⟨b, hb, h⟩ => hx ⟨b, by simp [hb], h⟩)]
      exact hfr x (fun h => hx ⟨(u, orig), by simp, by rw [hlen] at h; exact h⟩)

end Verif
