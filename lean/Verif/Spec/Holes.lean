import Verif.Model.Holes
import Verif.Spec.Memory
/-
Specification vocabulary for memory maps, gaps and allocations.
-/
namespace Verif

/-- A memory map as the kernel prints it: sorted, disjoint, non-empty, page-aligned mappings inside the
64-bit address space. -/
structure MapOk (page : Nat) (maps : List (Nat × Nat)) : Prop where
  nonempty : ∀ r ∈ maps, r.1 < r.2
  bound : ∀ r ∈ maps, r.2 ≤ 2 ^ 64 - page
  aligned : ∀ r ∈ maps, page ∣ r.1 ∧ page ∣ r.2
  sorted : maps.Pairwise fun r s => r.2 ≤ s.1

/-- `x` is covered by one of the ranges. -/
def Covered (ranges : List (Nat × Nat)) (x : Nat) : Prop := ∃ r ∈ ranges, r.1 ≤ x ∧ x < r.2

/-- The two ranges are at least `page` apart (so they are disjoint and have a guard page between them). -/
def Apart (page s e s' e' : Nat) : Prop := e + page ≤ s' ∨ e' + page ≤ s

/-- The end of a gap including the guard page after it. -/
def Hole.guardEnd (page : Nat) (h : Hole) : Nat := if h.start < h.stop then h.stop + page else h.stop

/-- The recorded gaps are correct with respect to the used memory: aligned, sorted, not overlapping, and
every non-empty gap is at least a page away from everything that is used. -/
structure HolesOk (page : Nat) (used : List (Nat × Nat)) (holes : List Hole) : Prop where
  order : ∀ h ∈ holes, page ≤ h.start ∧ h.start ≤ h.stop ∧ h.guardEnd page < 2 ^ 64
  aligned : ∀ h ∈ holes, page ∣ h.start ∧ page ∣ h.stop
  sorted : holes.Pairwise fun h k => h.guardEnd page ≤ k.start
  apart : ∀ h ∈ holes, h.start < h.stop → ∀ r ∈ used, Apart page h.start h.stop r.1 r.2

/-- An object of the process as the search sees it: the gaps up to its `previous_hole` lie below the end of
the object, the following ones above its start. -/
structure ObjectOk (page os oe prev : Nat) (holes : List Hole) : Prop where
  bound : oe < 2 ^ 64
  order : os ≤ oe
  here : ∃ pre h post, holes = pre ++ h :: post ∧ h.id = prev ∧
    (∀ k ∈ pre ++ [h], k.guardEnd page ≤ oe) ∧ (∀ k ∈ post, os ≤ k.start)

/-- The object consisting of the lines `idx` (in order) of the memory map: `os` is the start of its first
mapping, `oe` the end of its last one, `prev` its `previous_hole`. -/
structure ObjectOfLines (page : Nat) (maps : List (Nat × Nat)) (idx : List Nat) (os oe prev : Nat) : Prop where
  ordered : idx.Pairwise (· < ·)
  bounds : ∀ i ∈ idx, i < maps.length
  first : ∃ i, idx.head? = some i ∧ (maps[i]?).map Prod.fst = some os
  last : ∃ i, idx.getLast? = some i ∧ (maps[i]?).map Prod.snd = some oe
  hole : previousHole (idx.map fun i => ((lineHoles page 0 0 none maps)[i]?).join) = some prev

/-- The condition under which the left branch of the search is right: no gap below the object ends at a
distance between `max_distance - memsize` and `max_distance` from the object's end, where
`max_distance` is the reach minus the size of the patch. -/
def NoBoundaryHole (reach memsize oe : Nat) (holes : List Hole) : Prop :=
  ∀ k ∈ holes, k.stop ≤ oe → oe - k.stop ≤ reach - memsize → oe - k.stop + memsize ≤ reach - memsize

end Verif
