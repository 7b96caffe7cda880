import Verif.Model.Cc
/-
C53: the file copy of the compiler wrapper.
-/
namespace Verif

/-- What holds between two system calls of a copy of `src`: `chunk` is the last chunk read. -/
structure CopyInv (src : List Byte) (full : Bool) (st : CopySt) : Prop where
  split : ∃ done, src = done ++ st.rest ∧
    match st.phase with
    | none => done.Sublist st.out ∧ (full = true → done = st.out)
    | some (r, w) => ∃ prev chunk, done = prev ++ chunk ∧ chunk.length = r ∧ 0 < r ∧ w < r ∧ r ≤ copyBufSize ∧
        (∀ i (h : i < chunk.length), st.buf i = chunk[i]) ∧
        (prev ++ chunk.take w).Sublist st.out ∧ (full = true → prev = st.out ∧ w = 0)

theorem copyStep_inv (src : List Byte) (full : Bool) (st : CopySt) (h : CopyInv src full st) (e : CopyEv)
    (he : full = true → ∀ n, e = .wr n → copyBufSize ≤ n) :
    match copyStep st e with
    | .run st' => CopyInv src full st'
    | .done out => src.Sublist out ∧ (full = true → out = src)
    | _ => True := by
  obtain ⟨done, hs, hp⟩ := h.split
  cases e with
  | intr => exact h
  | fail => trivial
  | rd n =>
    unfold copyStep
    cases hph : st.phase with
    | some p => trivial
    | none =>
      rw [hph] at hp
      dsimp only at hp ⊢
      by_cases hr : st.rest = []
      · rw [if_pos hr]
        rw [hr, List.append_nil] at hs
        subst hs
        exact ⟨hp.1, fun hf => (hp.2 hf).symm⟩
      · rw [if_neg hr]
        generalize hk : max 1 (min n (min copyBufSize st.rest.length)) = k
        have hlen : 0 < st.rest.length := List.length_pos_iff.2 hr
        have hk1 : 1 ≤ k := by omega
        have hk2 : k ≤ st.rest.length := by have : copyBufSize = 4096 := rfl; omega
        have hk3 : k ≤ copyBufSize := by have : copyBufSize = 4096 := rfl; omega
        refine ⟨done ++ st.rest.take k, ?_, ?_⟩
        · dsimp only; rw [List.append_assoc, List.take_append_drop]; exact hs
        · dsimp only
          refine ⟨done, st.rest.take k, rfl, by simp; omega, by omega, by omega, hk3, ?_, ?_, ?_⟩
          · intro i hi
            simp only [List.length_take] at hi
            rw [if_pos (by omega), List.getElem?_eq_getElem (by omega)]
            simp
          · simpa using hp.1
          · intro hf; exact ⟨hp.2 hf, rfl⟩
  | wr n =>
    unfold copyStep
    cases hph : st.phase with
    | none => trivial
    | some p =>
      obtain ⟨r, w⟩ := p
      rw [hph] at hp
      dsimp only at hp ⊢
      obtain ⟨prev, chunk, h1, h2, h3, h4, h5, h6, h7, h8⟩ := hp
      -- what the write takes from the chunk
      have hbytes : ∀ c, w + c ≤ r → (List.range c).map (fun i => st.buf (w + i)) = (chunk.drop w).take c := by
        intro c hc
        apply List.ext_getElem
        · simp; omega
        · intro i hi1 hi2
          simp only [List.length_map, List.length_range] at hi1
          simp only [List.getElem_map, List.getElem_range, List.getElem_take, List.getElem_drop]
          exact h6 (w + i) (by omega)
      have hfullc : full = true → min n r = r := fun hf => by have := he hf n rfl; omega
      generalize hc : min n r = c at *
      by_cases hge : w + c ≥ r
      · rw [if_pos hge]
        have hsplit : (List.range c).map (fun i => st.buf (w + i)) =
            chunk.drop w ++ (List.range (c - (r - w))).map (fun i => st.buf (r + i)) := by
          have e1 : c = (r - w) + (c - (r - w)) := by omega
          rw [e1, List.range_add, List.map_append, hbytes (r - w) (by omega), List.take_of_length_le (by simp; omega),
            List.map_map]
          congr 1
          rw [show r - w + (c - (r - w)) - (r - w) = c - (r - w) by omega]
          apply List.map_congr_left
          intro i _
          simp only [Function.comp]
          congr 1
          omega
        refine ⟨done, hs, ?_⟩
        dsimp only
        refine ⟨?_, ?_⟩
        · rw [hsplit, h1]
          have : prev ++ chunk = (prev ++ chunk.take w) ++ chunk.drop w := by
            rw [List.append_assoc, List.take_append_drop]
          rw [this, ← List.append_assoc]
          exact (List.Sublist.append h7 (List.Sublist.refl _)).trans (List.sublist_append_left _ _)
        · intro hf
          obtain ⟨g1, g2⟩ := h8 hf
          have g3 := hfullc hf
          rw [hsplit, g2, g3, h1, g1]
          simp
      · rw [if_neg hge]
        refine ⟨done, hs, ?_⟩
        dsimp only
        refine ⟨prev, chunk, h1, h2, h3, by omega, h5, h6, ?_, ?_⟩
        · rw [hbytes c (by omega)]
          have : prev ++ chunk.take (w + c) = (prev ++ chunk.take w) ++ (chunk.drop w).take c := by
            rw [List.append_assoc, List.take_add]
          rw [this]
          exact List.Sublist.append h7 (List.Sublist.refl _)
        · intro hf
          have := hfullc hf
          omega

theorem copyRun_done (out : List Byte) (evs : List CopyEv) : copyRun (.done out) evs = .done out := by
  cases evs <;> rfl

theorem copyRun_inv (src : List Byte) (full : Bool) (evs : List CopyEv)
    (he : full = true → ∀ n, CopyEv.wr n ∈ evs → copyBufSize ≤ n) (st : CopySt) (h : CopyInv src full st) (out : List Byte)
    (hd : copyRun (.run st) evs = .done out) : src.Sublist out ∧ (full = true → out = src) := by
  induction evs generalizing st with
  | nil => simp [copyRun] at hd
  | cons e es ih =>
    rw [copyRun] at hd
    have hstep := copyStep_inv src full st h e (fun hf n hn => he hf n (by simp [hn]))
    cases hc : copyStep st e with
    | run st' =>
      rw [hc] at hd hstep
      exact ih (fun hf n hn => he hf n (by simp [hn])) st' hstep hd
    | done o =>
      rw [hc] at hd hstep
      rw [copyRun_done] at hd
      cases hd
      exact hstep
    | fatal => rw [hc] at hd; cases es <;> simp [copyRun] at hd
    | stuck => rw [hc] at hd; cases es <;> simp [copyRun] at hd

theorem copyInit_inv (src : List Byte) (stack : Nat → Byte) (full : Bool) :
    CopyInv src full ⟨src, stack, [], none⟩ :=
  ⟨[], by simp, by simp⟩

/-- **C53** (partial: only when the kernel takes every write completely).  However the kernel splits the
reads and whatever calls are interrupted, when the copy reports success the destination has exactly the
bytes of the source. -/
theorem C53_exact_partial (src : List Byte) (stack : Nat → Byte) (evs : List CopyEv)
    (hfull : ∀ n, CopyEv.wr n ∈ evs → copyBufSize ≤ n) (out : List Byte)
    (h : copyFile src stack evs = .done out) : out = src :=
  (copyRun_inv src true evs (fun _ => hfull) _ (copyInit_inv src stack true) out h).2 rfl

/-- With arbitrary short writes at least nothing is lost: the source is a subsequence of the destination. -/
theorem C53_nothing_lost (src : List Byte) (stack : Nat → Byte) (evs : List CopyEv) (out : List Byte)
    (h : copyFile src stack evs = .done out) : src.Sublist out :=
  (copyRun_inv src false evs (fun hf => by simp at hf) _ (copyInit_inv src stack false) out h).1

/-- The outcome of a copy, for the examples. -/
def CopyRes.out? : CopyRes → Option (List Byte)
  | .done o => some o
  | _ => none

theorem CopyRes.out?_some {r : CopyRes} {o : List Byte} (h : r.out? = some o) : r = .done o := by
  cases r <;> simp_all [CopyRes.out?]

example : (copyFile [1, 2, 3, 4, 5] (fun _ => 0xcc) [.rd 2, .wr 4096, .intr, .rd 4096, .intr, .wr 4096, .rd 1]).out?
    = some [1, 2, 3, 4, 5] := by decide +kernel

/-- **C53 is violated**: after a short write the code asks again for the full chunk size, so the rest is
followed by bytes from behind it (here stack contents). -/
theorem C53_violated_short_write :
    ∃ (src : List Byte) (stack : Nat → Byte) (evs : List CopyEv) (out : List Byte),
      copyFile src stack evs = .done out ∧ out ≠ src ∧ (∀ n, CopyEv.rd n ∈ evs → 0 < n) := by
  refine ⟨[1, 2, 3], fun _ => 0xcc, [.rd 4096, .wr 2, .wr 4096, .rd 4096], [1, 2, 3, 0xcc, 0xcc], ?_, ?_, ?_⟩
  · exact CopyRes.out?_some (by decide +kernel)
  · decide
  · intro n hn; simp at hn; omega

end Verif
