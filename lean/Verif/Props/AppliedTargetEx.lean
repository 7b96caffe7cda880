import Verif.Props.AppliedTarget
import Verif.Props.TargetEx
/-
C85 for a whole process: the process of `ExTarget` is patched.
-/
namespace Verif
open Cpu

namespace ExTarget

theorem notApplied : NotApplied mem [foo, libc] (lit "7") := by
  intro v hv h
  have h0 := h.1 0 (by decide)
  simp only [List.mem_cons, List.not_mem_nil, or_false] at hv
  rcases hv with rfl | rfl
  · exact absurd h0 (by decide +kernel)
  · exact absurd h0 (by decide +kernel)

theorem provided : ProvidedByLibrary (BitVec.ofNat 64 T.page)
    ([] ++ (fooObj, some (ExObj.image 4 ExObj.progStart 0x3e0#64)) :: [(libcObj, some (ExObj.image 3 ExObj.libStart 0x3f0#64))])
    T.ifunc (lit "f@V") := by
  refine ⟨[], fooObj, _, _, ExObj.f, _, rfl, Or.inr ⟨lit "V", by decide +kernel⟩, by decide, by decide, by simp, ⟨rfl, Or.inl (by decide)⟩,
    rfl, ⟨.func, 0x3e0#64, ExObj.defines_iff.2 ⟨rfl, rfl⟩⟩, ?_⟩
  intro t v hd
  obtain ⟨rfl, rfl⟩ := ExObj.defines_iff.1 hd
  exact ⟨ExObj.covers (dev := makedev 8 1) (ino := 11) (nm := "libfoo.so.1") rfl (by decide) (by decide) (by decide) (by decide), by decide +kernel⟩

theorem usable : Usable obj (ProvidedByLibrary (BitVec.ofNat 64 T.page)
    ([] ++ (fooObj, some (ExObj.image 4 ExObj.progStart 0x3e0#64)) :: [(libcObj, some (ExObj.image 3 ExObj.libStart 0x3f0#64))])
    T.ifunc) where
  symbols := by decide +kernel
  libraries := by
    intro s hs hl
    have hs' : s ∈ [(1, ⟨lit "old", ⟨0x20, 16, 8, .func, .glob⟩⟩),
      (5, ⟨lit "new", ⟨0, 16, 1, .func, .glob⟩⟩), (9, (⟨lit "f@V", ⟨0, 0, 0, .func, .glob⟩⟩ : PSym))] := hs
    simp only [List.mem_cons, List.not_mem_nil, or_false] at hs'
    rcases hs' with rfl | rfl | rfl
    · exact absurd (PSym.lib_iff _ |>.2 hl) (by decide)
    · exact absurd (PSym.lib_iff _ |>.2 hl) (by decide)
    · exact provided
  first := by decide
  inside := by
    have : ∀ i, i < obj.secs.length → obj.isRela i → ∀ r ∈ obj.rels i, r.offset < (obj.sec (obj.sec i).info).size := by decide +kernel
    exact fun i h => this i h.2.1 h

theorem room : RoomBeside .x86 T.page [foo, libc] fooObj (patchMemSize .x86 T.page file) := by
  rw [size_eq]
  exact ⟨[], ⟨0, 4096, 0x5554fffff000⟩, ⟨1, 0x555500002000, 0x7efffffff000⟩, [], by decide +kernel, by decide +kernel, by decide +kernel,
    Or.inl (by decide +kernel)⟩

theorem works : SystemWorks .x86 (T.apply 0) (T.mmapOk 0) img.length obj.syms.length where
  mmap := rfl
  malloc := ⟨rfl, rfl, rfl⟩
  writes := by decide +kernel
  safe := fun _ => rfl
  hunks := fun _ => by show (5 : Nat) ≤ 100 ∧ 5 ≤ 100 ∧ 5 ≤ 100; decide
  mprotect := rfl

/-- The hypotheses of C85 for a process are met. -/
example : ∃ m', patchProcess .x86 x86RelocArch T text file mem mem = some (m', some 1) :=
  C85_process_partial (pid := lit "7") .x86 case (by decide +kernel) (by decide +kernel) notApplied usable room works (by
    intro kpta base syms _ _ _ _ _
    have : ∀ i, i < obj.secs.length → obj.isRela i → ∀ r ∈ obj.rels i, r.typ ∈ [0, 18, 23] ∨ r.typ ∈ x86Numbers.map Prod.fst := by
      decide +kernel
    intro i hi k r hkr
    rcases this i hi.2.1 hi r (List.mem_of_getElem? hkr) with h | h
    · exact Or.inl h
    · obtain ⟨p, hp, he⟩ := List.mem_map.1 h
      exact Or.inr ⟨p.2, by rw [← he]; exact hp⟩) (by intro h; cases h)

end ExTarget
end Verif
