import Verif.Model.Strip
/-
C59: the layout of the stripped patch file.
-/
namespace Verif

theorem align64_pow (x : BitVec 64) (k : Nat) (hk : k < 64) (hx : x.toNat + (2 ^ k - 1) < 2 ^ 64) :
    (align64 x (BitVec.ofNat 64 (2 ^ k))).toNat = (x.toNat + (2 ^ k - 1)) / 2 ^ k * 2 ^ k := by
  have h2 : 2 ^ k < 2 ^ 64 := Nat.pow_lt_pow_right (by omega) hk
  have hp : 0 < 2 ^ k := Nat.two_pow_pos k
  have hs : (BitVec.ofNat 64 (2 ^ k) - 1).toNat = 2 ^ k - 1 := by
    rw [BitVec.toNat_sub]
    simp only [BitVec.toNat_ofNat]
    rw [Nat.mod_eq_of_lt h2, show BitVec.toNat (1 : BitVec 64) = 1 from rfl]
    omega
  have ha : (x + BitVec.ofNat 64 (2 ^ k) - 1) = x + (BitVec.ofNat 64 (2 ^ k) - 1) := by
    rw [BitVec.sub_eq_add_neg, BitVec.sub_eq_add_neg, BitVec.add_assoc]
  unfold align64
  rw [ha]
  generalize hy : x + (BitVec.ofNat 64 (2 ^ k) - 1) = y
  have hyn : y.toNat = x.toNat + (2 ^ k - 1) := by
    rw [← hy, BitVec.toNat_add, hs, Nat.mod_eq_of_lt hx]
  generalize hz : BitVec.ofNat 64 (2 ^ k) - 1 = z at *
  rw [← hyn]
  have : y &&& ~~~z = (y >>> k) <<< k := by
    apply BitVec.eq_of_getLsbD_eq
    intro i hi
    have hzb : z.getLsbD i = decide (i < k) := by
      rw [← BitVec.testBit_toNat, hs, Nat.testBit_two_pow_sub_one]
    simp only [BitVec.getLsbD_and, BitVec.getLsbD_not, BitVec.getLsbD_shiftLeft, BitVec.getLsbD_ushiftRight, hzb, hi]
    by_cases h : i < k
    · simp [h]
    · simp [h, show k + (i - k) = i by omega]
  rw [this, BitVec.toNat_shiftLeft, BitVec.toNat_ushiftRight, Nat.shiftRight_eq_div_pow, Nat.shiftLeft_eq, Nat.mod_eq_of_lt]
  calc y.toNat / 2 ^ k * 2 ^ k ≤ y.toNat := Nat.div_mul_le_self ..
    _ < 2 ^ 64 := y.isLt

/-- What one section may add to the file at most. -/
def ScnIn.room (s : ScnIn) : Nat := s.align.toNat + s.data.length + infoLastSize

/-- The bytes a section must have in the output: those sections that are needed at patch time keep their
contents (the info table followed by an all-zero end marker), the others have none. -/
def ScnIn.wanted (s : ScnIn) : List Byte :=
  if needSection s.name then
    if s.name = lit ".kpatch.info" then s.data ++ List.replicate 24 0 else s.data
  else []

theorem stripOne_spec (o0 : BitVec 64) (s : ScnIn) (k : Nat) (hk : k < 64)
    (hal : s.align = BitVec.ofNat 64 (2 ^ k)) (hroom : o0.toNat + s.room < 2 ^ 64)
    (out : ScnOut) (off1 : Option (BitVec 64)) (h : stripOne (some o0) s = some (out, off1)) :
    out.name = s.name ∧ out.data = s.wanted ∧ s.align.toNat ∣ out.offset.toNat ∧
    o0.toNat ≤ out.offset.toNat ∧
    ∃ o1, off1 = some o1 ∧ o1.toNat = out.offset.toNat + out.data.length ∧ o1.toNat ≤ o0.toNat + s.room := by
  have h2 : 2 ^ k < 2 ^ 64 := Nat.pow_lt_pow_right (by omega) hk
  have hp : 0 < 2 ^ k := Nat.two_pow_pos k
  have hat : s.align.toNat = 2 ^ k := by rw [hal, BitVec.toNat_ofNat, Nat.mod_eq_of_lt h2]
  have hr : s.room = 2 ^ k + s.data.length + 24 := by rw [ScnIn.room, hat, infoLastSize]
  rw [hr] at hroom ⊢
  have hax := align64_pow o0 k hk (by omega)
  rw [← hal] at hax
  have hge : o0.toNat ≤ (align64 o0 s.align).toNat := by
    rw [hax]
    have := Nat.div_add_mod (o0.toNat + (2 ^ k - 1)) (2 ^ k)
    have h3 := Nat.mod_lt (o0.toNat + (2 ^ k - 1)) hp
    rw [Nat.mul_comm] at this
    omega
  have hle : (align64 o0 s.align).toNat ≤ o0.toNat + (2 ^ k - 1) := by
    rw [hax]; exact Nat.div_mul_le_self ..
  have hdvd : s.align.toNat ∣ (align64 o0 s.align).toNat := by
    rw [hax, hat]; exact Nat.dvd_mul_left ..
  unfold stripOne at h
  dsimp only at h
  generalize align64 o0 s.align = q at *
  unfold ScnIn.wanted
  by_cases hn : needSection s.name = true
  · rw [if_pos hn] at h ⊢
    by_cases hi : s.name = lit ".kpatch.info"
    · rw [if_pos (by simpa using hi)] at h
      rw [if_pos hi]
      split at h
      · contradiction
      · simp only [Option.some.injEq, Prod.mk.injEq] at h
        obtain ⟨rfl, rfl⟩ := h
        refine ⟨rfl, rfl, hdvd, hge, _, rfl, ?_, ?_⟩
        · simp only [BitVec.toNat_add, BitVec.toNat_ofNat, List.length_append, List.length_replicate, infoLastSize]
          omega
        · simp only [BitVec.toNat_add, BitVec.toNat_ofNat, infoLastSize]
          omega
    · rw [if_neg (by simpa using hi)] at h
      rw [if_neg hi]
      simp only [Option.some.injEq, Prod.mk.injEq] at h
      obtain ⟨rfl, rfl⟩ := h
      refine ⟨rfl, rfl, hdvd, hge, _, rfl, ?_, ?_⟩ <;>
      · simp only [BitVec.toNat_add, BitVec.toNat_ofNat]
        omega
  · rw [if_neg hn] at h ⊢
    simp only [Option.some.injEq, Prod.mk.injEq] at h
    obtain ⟨rfl, rfl⟩ := h
    refine ⟨rfl, rfl, hdvd, hge, _, rfl, ?_, ?_⟩
    · simp
    · omega

/-- Space the sections need at most. -/
def roomOf (ss : List ScnIn) : Nat := (ss.map ScnIn.room).sum

theorem stripGo_spec (ss : List ScnIn) (hal : ∀ s ∈ ss, ∃ k, k < 64 ∧ s.align = BitVec.ofNat 64 (2 ^ k)) :
    ∀ (o0 : BitVec 64) (os : List ScnOut) (off1 : Option (BitVec 64)), o0.toNat + roomOf ss < 2 ^ 64 →
    stripGo (some o0) ss = some (os, off1) →
    os.map ScnOut.name = ss.map ScnIn.name ∧ os.map ScnOut.data = ss.map ScnIn.wanted ∧
    (∀ (j : Nat) (s : ScnIn) (o : ScnOut), ss[j]? = some s → os[j]? = some o → s.align.toNat ∣ o.offset.toNat) ∧
    (os.Pairwise fun a b => a.offset.toNat + a.data.length ≤ b.offset.toNat) ∧
    (∀ o ∈ os, o0.toNat ≤ o.offset.toNat) ∧
    ∃ o1, off1 = some o1 ∧ o0.toNat ≤ o1.toNat ∧ (∀ o ∈ os, o.offset.toNat + o.data.length ≤ o1.toNat) ∧
      o1.toNat ≤ o0.toNat + roomOf ss := by
  induction ss with
  | nil =>
    intro o0 os off1 _ h
    simp only [stripGo, Option.some.injEq, Prod.mk.injEq] at h
    obtain ⟨rfl, rfl⟩ := h
    simp
  | cons s ss ih =>
    intro o0 os off1 hroom h
    rw [stripGo] at h
    cases h1 : stripOne (some o0) s with
    | none => rw [h1] at h; simp at h
    | some p =>
      obtain ⟨out, off'⟩ := p
      rw [h1] at h
      dsimp only at h
      obtain ⟨k, hk, hk2⟩ := hal s (by simp)
      have hr2 : roomOf (s :: ss) = s.room + roomOf ss := by simp [roomOf]
      rw [hr2] at hroom
      obtain ⟨e1, e2, e3, e4, o1, rfl, e5, e6⟩ := stripOne_spec o0 s k hk hk2 (by omega) out off' h1
      cases h2 : stripGo (some o1) ss with
      | none => rw [h2] at h; simp at h
      | some q =>
        obtain ⟨os', off2⟩ := q
        rw [h2] at h
        simp only [Option.some.injEq, Prod.mk.injEq] at h
        obtain ⟨rfl, rfl⟩ := h
        obtain ⟨f1, f2, f3, f4, f5, o2, rfl, f6, f7, f8⟩ :=
          ih (fun s hs => hal s (by simp [hs])) o1 os' off2 (by omega) h2
        refine ⟨by simp [e1, f1], by simp [e2, f2], ?_, ?_, ?_, o2, rfl, by omega, ?_, by omega⟩
        · intro j s' o' hj hj'
          cases j with
          | zero => simp at hj hj'; subst hj hj'; exact e3
          | succ j => exact f3 j s' o' (by simpa using hj) (by simpa using hj')
        · refine List.Pairwise.cons ?_ f4
          intro b hb
          have := f5 b hb
          omega
        · intro o ho
          rcases List.mem_cons.1 ho with rfl | ho
          · exact e4
          · have := f5 o ho; omega
        · intro o ho
          rcases List.mem_cons.1 ho with rfl | ho
          · omega
          · exact f7 o ho

/-- **C59** (partial: alignments must be powers of two, which excludes the value 0 that ELF also allows,
and the file must not be near 2^64 bytes).  When the stripper succeeds, the output has the sections of the
input in the same order, each with exactly the contents it must have; from the second section on each is
placed at a multiple of its alignment; no two sections share a byte of the file; and the section headers
come after all of them, at a multiple of 8. -/
theorem C59_layout_partial (s : ScnIn) (ss : List ScnIn) (os : List ScnOut) (shoff : BitVec 64)
    (hal : ∀ t ∈ ss, ∃ k, k < 64 ∧ t.align = BitVec.ofNat 64 (2 ^ k))
    (hroom : s.offset.toNat + s.data.length + roomOf ss + 64 < 2 ^ 64)
    (h : kpatchStrip (s :: ss) = some (os, shoff)) :
    os.map ScnOut.name = (s :: ss).map ScnIn.name ∧ os.map ScnOut.data = (s :: ss).map ScnIn.wanted ∧
    (∀ (j : Nat) (t : ScnIn) (o : ScnOut), ss[j]? = some t → os[j + 1]? = some o → t.align.toNat ∣ o.offset.toNat) ∧
    (os.Pairwise fun a b => a.offset.toNat + a.data.length ≤ b.offset.toNat) ∧
    (∀ o ∈ os, o.offset.toNat + o.data.length ≤ shoff.toNat) ∧ 8 ∣ shoff.toNat := by
  unfold kpatchStrip at h
  split at h
  · rename_i os' off hgo
    simp only [Option.some.injEq, Prod.mk.injEq] at h
    obtain ⟨rfl, rfl⟩ := h
    rw [stripGo] at hgo
    -- the first section keeps its offset: as if the running offset were that offset, with alignment 1
    have h0 : stripOne none s = stripOne (some s.offset) { s with align := 1 } := by
      have : align64 s.offset 1 = s.offset := by
        apply BitVec.eq_of_toNat_eq
        have := align64_pow s.offset 0 (by omega) (by have := s.offset.isLt; simpa using this)
        simpa using this
      simp only [stripOne, this]
    rw [h0] at hgo
    cases h1 : stripOne (some s.offset) { s with align := 1 } with
    | none => rw [h1] at hgo; simp at hgo
    | some p =>
      obtain ⟨out, off'⟩ := p
      rw [h1] at hgo
      dsimp only at hgo
      have hr : ({ s with align := 1 } : ScnIn).room = 1 + s.data.length + 24 := rfl
      obtain ⟨e1, e2, -, e4, o1, rfl, e5, e6⟩ := stripOne_spec s.offset { s with align := 1 } 0 (by omega) rfl
        (by rw [hr]; omega) out off' h1
      rw [hr] at e6
      cases h2 : stripGo (some o1) ss with
      | none => rw [h2] at hgo; simp at hgo
      | some q =>
        obtain ⟨os', off2⟩ := q
        rw [h2] at hgo
        simp only [Option.some.injEq, Prod.mk.injEq] at hgo
        obtain ⟨rfl, rfl⟩ := hgo
        obtain ⟨f1, f2, f3, f4, f5, o2, ho2, f6, f7, f8⟩ := stripGo_spec ss hal o1 os' _ (by omega) h2
        cases ho2
        have hsh := align64_pow off 3 (by omega) (by omega)
        have hsh' : (align64 off 8).toNat = (off.toNat + 7) / 8 * 8 := hsh
        refine ⟨by simp [e1, f1], ?_, ?_, ?_, ?_, ?_⟩
        · simp only [List.map_cons, f2, e2]; rfl
        · intro j t o hj hj'
          exact f3 j t o hj (by simpa using hj')
        · refine List.Pairwise.cons ?_ f4
          intro b hb
          have := f5 b hb
          omega
        · intro o ho
          rw [hsh']
          rcases List.mem_cons.1 ho with rfl | ho
          · omega
          · have := f7 o ho; omega
        · rw [hsh']; exact Nat.dvd_mul_left ..
  · contradiction

/-- A patch with code, info table and symbol table, to see the layout. -/
def c59File : List ScnIn :=
  [⟨lit ".text", 64, 16, List.replicate 3 1, []⟩, ⟨lit ".kpatch.text", 80, 16, [1, 2, 3], []⟩,
   ⟨lit ".kpatch.info", 96, 1, List.replicate 48 7, [⟨0x1000, 0x2000, 9, 40, false⟩]⟩,
   ⟨lit ".symtab", 144, 8, List.replicate 24 5, []⟩]

example : (kpatchStrip c59File).map (fun r => (r.1.map fun o => (o.offset, o.nobits, o.data.length), r.2)) =
    some ([(64, true, 0), (64, false, 3), (67, false, 72), (144, false, 24)], 168) := by
  decide +kernel
example : (∀ t ∈ c59File.drop 1, ∃ k, k < 64 ∧ t.align = BitVec.ofNat 64 (2 ^ k)) := by
  intro t ht
  simp only [c59File, List.drop_succ_cons, List.drop_zero, List.mem_cons, List.not_mem_nil, or_false] at ht
  rcases ht with rfl | rfl | rfl
  · exact ⟨4, by omega, rfl⟩
  · exact ⟨0, by omega, rfl⟩
  · exact ⟨3, by omega, rfl⟩

/-- **C59 is violated** for a section with `sh_addralign` 0, which ELF defines to mean the same as 1: the
rounding yields file offset 0, so the section is written over the ELF header and, when long enough, over
the sections before it. -/
theorem C59_violated_align0 :
    ∃ (secs : List ScnIn) (os : List ScnOut) (shoff : BitVec 64) (a b : ScnOut), kpatchStrip secs = some (os, shoff) ∧
      os[0]? = some a ∧ os[1]? = some b ∧ a.nobits = false ∧ b.nobits = false ∧ b.offset = 0 ∧
      b.offset.toNat < a.offset.toNat + a.data.length ∧ a.offset.toNat < b.offset.toNat + b.data.length := by
  refine ⟨[⟨lit ".kpatch.text", 64, 16, [1, 2, 3], []⟩, ⟨lit ".strtab", 96, 0, List.replicate 70 7, []⟩],
    [⟨lit ".kpatch.text", 64, false, [1, 2, 3]⟩, ⟨lit ".strtab", 0, false, List.replicate 70 7⟩], 72, _, _,
    ?_, rfl, rfl, rfl, rfl, rfl, ?_, ?_⟩
  · decide +kernel
  · decide
  · decide +kernel

end Verif
