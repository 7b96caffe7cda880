import Verif.Proof.Bytes
/-
Inequalities between the parts of a patch (used by C08 and C01).
-/
namespace Verif

theorem layout_ineq (a : Arch) (page undef imageSize infoOff ninfo : Nat) (hpage : 0 < page)
    (hfit : (layout a page undef (504 + imageSize) infoOff ninfo).totalMem < 2 ^ 32)
    (hinfo : infoOff ≤ imageSize) :
    let l := layout a page undef (504 + imageSize) infoOff ninfo
    504 ≤ l.elfOffset ∧ l.elfOffset + imageSize ≤ l.userUndo ∧
    l.userUndo + a.hunkSize * ninfo ≤ l.totalMem ∧
    l.elfOffset % page = 0 ∧ l.totalMem % page = 0 ∧
    l.userInfo = l.elfOffset + infoOff ∧
    (undef = 0 ∧ l.jmpOffset = none ∨
     undef ≠ 0 ∧ l.jmpOffset = some 504 ∧ 504 + jmpTableSize a undef ≤ l.elfOffset) := by
  have e0 : roundUp hdrSize 8 = 504 := by decide
  simp only [layout, e0] at hfit ⊢
  generalize hA : jmpTableSize a undef = jsz at *
  generalize hs1 : (if undef ≠ 0 then roundUp (504 + jsz) page else 504) = sz1 at *
  generalize hs2 : roundUp sz1 page = sz2 at *
  generalize hs3 : roundUp (sz2 + (504 + imageSize) - hdrSize) 128 = sz3 at *
  generalize hs4 : roundUp (sz3 + a.hunkSize * ninfo) 16 = sz4 at *
  generalize hs5 : roundUp sz4 page = sz5 at *
  have g1 : 504 ≤ sz1 := by
    rw [← hs1]; split
    · have := le_roundUp (504 + jsz) page hpage; omega
    · omega
  have g1' : undef ≠ 0 → 504 + jsz ≤ sz1 := by
    intro h
    rw [if_pos h] at hs1
    have := le_roundUp (504 + jsz) page hpage; omega
  have g2 := le_roundUp sz1 page hpage
  have g3 := le_roundUp (sz2 + (504 + imageSize) - hdrSize) 128 (by omega)
  have g4 := le_roundUp (sz3 + a.hunkSize * ninfo) 16 (by omega)
  have g5 := le_roundUp sz4 page hpage
  have m2 := roundUp_mod sz1 page
  have m5 := roundUp_mod sz4 page
  simp only [hdrSize] at g3 hs3
  rw [hs2] at g2 m2; rw [hs3] at g3; rw [hs4] at g4; rw [hs5] at g5 m5
  have u2 : u32 sz2 = sz2 := by unfold u32; omega
  have u3 : u32 sz3 = sz3 := by unfold u32; omega
  have ui : u32 (infoOff + sz2) = sz2 + infoOff := by unfold u32; omega
  have u5 : u32 504 = 504 := by decide
  rw [u2, u3, u5, ui]
  refine ⟨by omega, by omega, by omega, m2, m5, rfl, ?_⟩
  by_cases hu : undef = 0
  · left; simp [hu]
  · right
    have := g1' hu
    simp [hu]; omega

/-- The page granularity of the allocation leaves at least 128 bytes after the image when there is a
record. -/
theorem layout_slack (a : Arch) (page undef imageSize infoOff ninfo : Nat) (hpage : 0 < page)
    (hp128 : page % 128 = 0) (hn : 0 < ninfo)
    (hfit : (layout a page undef (504 + imageSize) infoOff ninfo).totalMem < 2 ^ 32)
    (hinfo : infoOff ≤ imageSize) :
    (layout a page undef (504 + imageSize) infoOff ninfo).elfOffset + imageSize + 128 ≤
      (layout a page undef (504 + imageSize) infoOff ninfo).totalMem := by
  obtain ⟨h1, h2, h3, h4, h5, h6, h7⟩ := layout_ineq a page undef imageSize infoOff ninfo hpage hfit hinfo
  have hu : (layout a page undef (504 + imageSize) infoOff ninfo).userUndo % 128 = 0 := by
    simp only [layout, u32]
    generalize (if undef ≠ 0 then roundUp (roundUp hdrSize 8 + jmpTableSize a undef) page
      else roundUp hdrSize 8) = z
    have := roundUp_mod (roundUp z page + (504 + imageSize) - hdrSize) 128
    omega
  generalize layout a page undef (504 + imageSize) infoOff ninfo = l at *
  have ht : l.totalMem % 128 = 0 := by
    rw [← Nat.mod_mod_of_dvd l.totalMem (Nat.dvd_of_mod_eq_zero hp128), h5]
  have hH : 0 < a.hunkSize * ninfo := Nat.mul_pos (by cases a <;> decide) hn
  omega

end Verif
