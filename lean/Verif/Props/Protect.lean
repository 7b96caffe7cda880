import Verif.Spec.Protect
import Verif.Proof.PatchLoad
/-
C84: the protection of the memory of a patch.
-/
namespace Verif
open Cpu

theorem lit_data_nul : 0#8 ∉ lit ".kpatch.data" := by decide +kernel

theorem strcmp_data {o : ElfObj} {img : List Byte} (E : o.Encoded img) {i : Nat} (h1 : 1 ≤ i) (h2 : i < o.secs.length) :
    (strcmp (o.secName i) (lit ".kpatch.data") == 0) = decide (o.secName i = lit ".kpatch.data") := by
  rw [Bool.eq_iff_iff]
  simp only [beq_iff_eq, decide_eq_true_eq]
  constructor
  · exact strcmp_eq_zero _ _ (E.secNames i h1 h2).1 lit_data_nul
  · intro h; rw [h]; exact strcmp_self _

theorem elfDataOffset_some {o : ElfObj} {img : List Byte} {w : Rela Nat → Nat} (E : o.Encoded img) (W : o.WellFormed w img.length)
    {n : Nat} (hn : o.dataSec n) : elfDataOffset img = (o.sec n).offset := by
  unfold elfDataOffset elfSecIdx
  obtain ⟨n1, n2, n3, n4⟩ := hn
  rw [E.num.2.1, find_first _ _ 1 n n1 (by omega)]
  · simp only [Option.map_some, Option.getD_some]
    rw [E.shdr n2]
  · rw [secName_eq E W n1 n2, strcmp_data E n1 n2]
    exact decide_eq_true n3
  · intro i h1 h2
    rw [secName_eq E W h1 (by omega), strcmp_data E h1 (by omega)]
    exact decide_eq_false (n4 i h1 h2)

theorem elfDataOffset_none {o : ElfObj} {img : List Byte} {w : Rela Nat → Nat} (E : o.Encoded img) (W : o.WellFormed w img.length)
    (hn : ∀ i, 1 ≤ i → i < o.secs.length → o.secName i ≠ lit ".kpatch.data") : elfDataOffset img = 0 := by
  unfold elfDataOffset elfSecIdx
  rw [E.num.2.1, List.find?_eq_none.2, Option.map_none, Option.getD_none]
  intro i hi
  rw [List.mem_range'_1] at hi
  rw [secName_eq E W hi.1 (by omega), strcmp_data E hi.1 (by omega)]
  simp only [decide_eq_true_eq]
  exact hn i hi.1 (by omega)

theorem first_data (o : ElfObj) : (∃ d, o.dataSec d) ∨ ∀ i, 1 ≤ i → i < o.secs.length → o.secName i ≠ lit ".kpatch.data" := by
  by_cases h : ∃ i, 1 ≤ i ∧ i < o.secs.length ∧ o.secName i = lit ".kpatch.data"
  · left
    obtain ⟨i, h1, h2, h3⟩ := h
    induction i using Nat.strongRecOn with
    | ind i ih =>
      by_cases hc : ∃ j, 1 ≤ j ∧ j < i ∧ o.secName j = lit ".kpatch.data"
      · obtain ⟨j, j1, j2, j3⟩ := hc
        exact ih j j2 j1 (by omega) j3
      · exact ⟨i, h1, h2, h3, fun j j1 j2 j3 => hc ⟨j, j1, j2, j3⟩⟩
  · right
    intro i h1 h2 h3
    exact h ⟨i, h1, h2, h3⟩

/-- The permissions after the patch has been applied, by the rounded end of the executable part. -/
theorem prots_eq {a : Arch} {ra : RelocArch} {pe : PrepEnv} {e : ApplyEnv} {ids : List (List Byte)} {file : List Byte} {m : Mem}
    {o : ElfObj} {w : Rela Nat → Nat} {n : Nat} {img : List Byte} {v : ElfView} {kpta : Nat} {image : List Byte} {l : Layout}
    (C : LoadCase a ra pe e file m o w n img v kpta image l) (T : FieldAt file 160 4 (504 + img.length)) {p p' : Prots}
    (h : objectApplyProts a ra pe e ids file m p = some p') :
    (0 < e.page ∧ 504 ≤ l.elfOffset ∧ l.elfOffset + img.length ≤ l.totalMem ∧ l.elfOffset % e.page = 0 ∧ l.totalMem % e.page = 0 ∧
      ∀ jo, l.jmpOffset = some jo → jo + jmpTableSize a v.undef ≤ l.elfOffset) ∧
    ∀ z, p' z = if kpta ≤ z ∧ z < kpta + roundUp (protLength l (elfDataOffset img)) e.page then some ⟨true, false, true⟩
      else if kpta ≤ z ∧ z < kpta + l.totalMem then some ⟨true, true, false⟩ else p z := by
  have A := C.apply
  obtain ⟨off, hoff, himg⟩ := C.object
  have hoff' : leVal ((file.drop offKpatchOffset).take 4) = off := hoff.ld
  have hview : fileView file = some v := A.view
  have hregion : e.region = some kpta := A.region
  have hlay : layout a e.page v.undef (totalSizeOf (file.take hdrSize)) v.infoOff v.ninfo = l := by
    rw [A.size, A.layout]; rfl
  have hlen : image.length = img.length := by
    have h1 := A.size
    have h2 : totalSizeOf file = 504 + img.length := T.ld
    have h3 : totalSizeOf (file.take hdrSize) = totalSizeOf file := by
      unfold totalSizeOf hdrSize offTotalSize
      rw [List.drop_take, List.take_take]
      rfl
    omega
  have hpg : 0 < e.page := Nat.lt_of_lt_of_le (by omega) A.page
  have hin := layout_ineq a e.page v.undef image.length v.infoOff v.ninfo hpg
    (by have := A.mem32; rw [A.layout] at this; exact this) (by have := A.table.fits; omega)
  have hle : layout a e.page v.undef (504 + image.length) v.infoOff v.ninfo = l := by rw [A.layout]; rfl
  rw [hle] at hin
  obtain ⟨i1, i2, i3, i4, i5, i6, i7⟩ := hin
  refine ⟨⟨hpg, i1, by omega, i4, i5, ?_⟩, ?_⟩
  · intro jo hj
    rcases i7 with ⟨_, h⟩ | ⟨_, h, h'⟩
    · rw [h] at hj; cases hj
    · rw [h] at hj; cases hj; exact h'
  · unfold objectApplyProts at h
    split at h
    · rw [hview, hregion] at h
      dsimp only at h
      rw [hlay, hoff', ← himg] at h
      cases h
      intro z
      unfold Prots.put
      rw [roundUp_of_mod _ _ hpg i5]
    · cases h

/-- C84: after a patch was applied with success, its header, its jump table and the sections before its data can be executed and
not be written, its data can be written and not be executed, nothing in its memory can be both, and what may be done with
any other memory is as before.  Partial: the data is in a section `.kpatch.data` that starts on a page
(`C84_violated_page_size`), and the code is before it (`C84_violated_order`). -/
theorem C84_protection_partial {a : Arch} {ra : RelocArch} {pe : PrepEnv} {e : ApplyEnv} {ids : List (List Byte)} {file : List Byte}
    {m : Mem} {o : ElfObj} {w : Rela Nat → Nat} {n : Nat} {img : List Byte} {v : ElfView} {kpta : Nat} {image : List Byte} {l : Layout}
    (C : LoadCase a ra pe e file m o w n img v kpta image l) (T : FieldAt file 160 4 (504 + img.length))
    (hd : ∀ d, o.dataSec d → o.inFile d ∧ e.page ∣ (o.sec d).offset) {p p' : Prots}
    (h : objectApplyProts a ra pe e ids file m p = some p') :
    (∀ z, ¬ InRange z kpta l.totalMem → p' z = p z) ∧
    (∀ z, InRange z kpta l.totalMem → p'.Code z ∨ p'.Data z) ∧
    (∀ k, k < 504 → p'.Code (kpta + k)) ∧
    (∀ jo, l.jmpOffset = some jo → ∀ k, k < jmpTableSize a v.undef → p'.Code (kpta + jo + k)) ∧
    (∀ i k, o.InSection i k → (∀ d, o.dataSec d → (o.sec i).offset + (o.sec i).size ≤ (o.sec d).offset) →
      p'.Code (kpta + l.elfOffset + k)) ∧
    (∀ d k, o.dataSec d → o.InSection d k → p'.Data (kpta + l.elfOffset + k)) := by
  obtain ⟨⟨h0, h1, h2, h3, h4, h5⟩, hp⟩ := prots_eq C T h
  have W := C.wellFormed
  obtain ⟨q, hq⟩ : ∃ q, roundUp (protLength l (elfDataOffset img)) e.page = q := ⟨_, rfl⟩
  rw [hq] at hp
  have hc : ∀ z, kpta ≤ z → z < kpta + q → p'.Code z := fun z z1 z2 => by
    unfold Prots.Code
    rw [hp, if_pos ⟨z1, z2⟩]
  rcases first_data o with ⟨d, hdd⟩ | hno
  · obtain ⟨d1, d2⟩ := hd d hdd
    have hf := W.fits d d1
    have hqe : q = l.elfOffset + (o.sec d).offset := by
      rw [← hq, elfDataOffset_some C.encoded W hdd]
      unfold protLength
      rw [if_pos (by omega), roundUp_of_mod _ _ h0]
      rw [Nat.add_mod, h3, Nat.mod_eq_zero_of_dvd d2, Nat.add_zero, Nat.zero_mod]
    have huniq : ∀ d', o.dataSec d' → d' = d := by
      intro d' h'
      rcases Nat.lt_trichotomy d d' with hlt | heq | hlt
      · exact absurd hdd.2.2.1 (h'.2.2.2 d hdd.1 hlt)
      · exact heq.symm
      · exact absurd h'.2.2.1 (hdd.2.2.2 d' h'.1 hlt)
    refine ⟨?_, ?_, ?_, ?_, ?_, ?_⟩
    · intro z hz
      simp only [InRange] at hz
      rw [hp, if_neg (by omega), if_neg (by omega)]
    · intro z hz
      simp only [InRange] at hz
      by_cases hzq : z < kpta + q
      · exact .inl (hc z hz.1 hzq)
      · right
        unfold Prots.Data
        rw [hp, if_neg (by omega), if_pos (by omega)]
    · exact fun k hk => hc _ (by omega) (by omega)
    · intro jo hj k hk
      have := h5 jo hj
      exact hc _ (by omega) (by omega)
    · intro i k hk hb
      have := hb d hdd
      have := hk.2
      exact hc _ (by omega) (by omega)
    · intro d' k hd' hk
      rw [huniq d' hd'] at hk
      have := hk.2
      unfold Prots.Data
      rw [hp, if_neg (by omega), if_pos (by omega)]
  · have hqe : q = l.totalMem := by
      rw [← hq, elfDataOffset_none C.encoded W hno]
      unfold protLength
      rw [if_neg (by simp), roundUp_of_mod _ _ h0 h4]
    refine ⟨?_, ?_, ?_, ?_, ?_, ?_⟩
    · intro z hz
      simp only [InRange] at hz
      rw [hp, if_neg (by omega), if_neg (by omega)]
    · intro z hz
      simp only [InRange] at hz
      exact .inl (hc z hz.1 (by omega))
    · exact fun k hk => hc _ (by omega) (by omega)
    · intro jo hj k hk
      have := h5 jo hj
      exact hc _ (by omega) (by omega)
    · intro i k hk _
      have := W.fits i hk.1
      have := hk.2
      exact hc _ (by omega) (by omega)
    · intro d' k hd' _
      exact absurd hd'.2.2.1 (hno d' hd'.1 hd'.2.1)

end Verif
