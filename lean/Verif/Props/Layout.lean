import Verif.Proof.Layout
import Verif.Spec.Memory
/-
C08: the parts of a loaded patch never overlap.
-/
namespace Verif

/-- The parts of the patch memory as (offset, length) pairs, read off the header fields: the header,
the jump table (if there are undefined symbols), the ELF image, the saved code. -/
def patchParts (a : Arch) (undef imageSize ninfo : Nat) (l : Layout) : List (Nat × Nat) :=
  [(0, 504)] ++ (l.jmpOffset.toList.map fun o => (o, jmpTableSize a undef)) ++
    [(l.elfOffset, imageSize), (l.userUndo, a.hunkSize * ninfo)]

/-- C08.  For every page size, number of undefined symbols, image size, number of records: as long as
the whole patch fits in the 32-bit offsets of the header (4 GiB), the parts are pairwise disjoint,
inside the allocation, the image is page aligned, the allocation is a whole number of pages, and
the record table pointer is the image offset plus the offset of the table in the image.
There is a jump table exactly when there are undefined symbols. -/
theorem C08_patch_parts_disjoint (a : Arch) (page undef imageSize infoOff ninfo : Nat)
    (hpage : 0 < page)
    (hfit : (layout a page undef (504 + imageSize) infoOff ninfo).totalMem < 2 ^ 32)
    (hinfo : infoOff ≤ imageSize) :
    let l := layout a page undef (504 + imageSize) infoOff ninfo
    (patchParts a undef imageSize ninfo l).Pairwise (fun p q => RangesDisjoint p.1 p.2 q.1 q.2) ∧
    (∀ p ∈ patchParts a undef imageSize ninfo l, p.1 + p.2 ≤ l.totalMem) ∧
    l.elfOffset % page = 0 ∧ l.totalMem % page = 0 ∧
    l.userInfo = l.elfOffset + infoOff ∧
    (l.jmpOffset.isSome ↔ undef ≠ 0) := by
  obtain ⟨h1, h2, h3, h4, h5, h6, h7⟩ := layout_ineq a page undef imageSize infoOff ninfo hpage hfit hinfo
  generalize layout a page undef (504 + imageSize) infoOff ninfo = l at *
  simp only
  refine ⟨?_, ?_, h4, h5, h6, ?_⟩
  · rcases h7 with ⟨_, hj⟩ | ⟨_, hj, g⟩
    · simp [patchParts, hj, RangesDisjoint, InRange]; and_intros <;> intros <;> omega
    · simp [patchParts, hj, RangesDisjoint, InRange]; and_intros <;> intros <;> omega
  · rcases h7 with ⟨_, hj⟩ | ⟨_, hj, g⟩
    · simp [patchParts, hj]; omega
    · simp [patchParts, hj]; omega
  · rcases h7 with ⟨hu, hj⟩ | ⟨hu, hj, g⟩
    · simp [hj, hu]
    · simp [hj, hu]

/-- A patch of 5000 bytes with 7 undefined symbols and 3 records on each architecture fits. -/
example : ∀ a : Arch, (layout a 4096 7 (504 + 5000) 1200 3).totalMem < 2 ^ 32 := by
  intro a; cases a <;> decide

end Verif
