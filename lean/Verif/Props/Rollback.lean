import Verif.Proof.Rollback
import Verif.Props.Restore
/-
C02: a patch that fails half way is rolled back.
-/
namespace Verif

/-- C02.  Applying fails at whatever point after the patch memory was allocated (splitting the gap,
relocating, any of the three writes, waiting, any hunk with any of its three remote accesses cut
anywhere, the final `mprotect`), and the rollback `object_unapply_patch(o, 1)` then succeeds: every
entry byte of every function of the object has the value it had before the attempt, the patch
region is unmapped again, and the rollback itself wrote nothing else. -/
theorem C02_failed_apply_rolled_back_partial {a : Arch} {e : ApplyEnv} {ids : List (List Byte)} {file : List Byte}
    {m0 : Mem} {v : ElfView} {kpta : Nat} {image : List Byte} {l : Layout} {eu : UnapplyEnv}
    (A : ApplyAssumptions a e file m0 v kpta image l)
    (hflag : FileRecordsUnflagged file v)
    (halloc : (objectApply a e ids file m0).2.1.kpta ≠ 0)
    (_hfail : (objectApply a e ids file m0).2.2 = false)
    (hwait : ∀ m' x, InRange x kpta l.totalMem ∨ IsEntryByte a (parseInfos image v.infoOff v.ninfo) x →
      (eu.safety m').1 x = m' x)
    (hroll : (objectUnapply a eu true (objectApply a e ids file m0).2.1 (objectApply a e ids file m0).1).2 = true) :
    let after := (objectUnapply a eu true (objectApply a e ids file m0).2.1 (objectApply a e ids file m0).1).1
    (∀ x, IsEntryByte a (parseInfos image v.infoOff v.ninfo) x → after x = m0 x) ∧
    (∀ x, InRange x kpta l.totalMem → after x = none ∧ m0 x = none) ∧
    (∀ x, ¬ InRange x kpta l.totalMem → ¬ IsEntryByte a (parseInfos image v.infoOff v.ninfo) x →
      after x = (eu.safety (objectApply a e ids file m0).1).1 x) := by
  obtain ⟨P, -⟩ := objectApply_partly (ids := ids) A hflag halloc
  obtain ⟨f1, f2, f3, f4, f5, f6, f7⟩ := header_fields A
  have hil : (parseInfos image v.infoOff v.ninfo).length = v.ninfo := parseInfos_length _ _ _
  obtain ⟨r1, r2, r3⟩ := rollback_partly P hwait (entriesDisjoint_of_funcs A.funcs)
    (entriesAvoid_of_unmapped A.funcs A.free) (by rw [hil]; exact f6) hroll
  refine ⟨r1, fun x hx => ⟨r2 x hx, ?_⟩, r3⟩
  have := A.free (x - kpta) (by simp only [InRange] at hx; omega)
  simp only [InRange] at hx
  rwa [show kpta + (x - kpta) = x by omega] at this

/-- C02 when nothing but the tool writes the process: the whole address space is as before. -/
theorem C02_failed_apply_rolled_back_exactly_partial {a : Arch} {e : ApplyEnv} {ids : List (List Byte)}
    {file : List Byte} {m0 : Mem} {v : ElfView} {kpta : Nat} {image : List Byte} {l : Layout} {eu : UnapplyEnv}
    (A : ApplyAssumptions a e file m0 v kpta image l)
    (hflag : FileRecordsUnflagged file v)
    (halloc : (objectApply a e ids file m0).2.1.kpta ≠ 0)
    (hfail : (objectApply a e ids file m0).2.2 = false)
    (hquiet1 : ∀ m, (e.safety m).1 = m) (hquiet2 : ∀ m, (eu.safety m).1 = m)
    (hroll : (objectUnapply a eu true (objectApply a e ids file m0).2.1 (objectApply a e ids file m0).1).2 = true) :
    (objectUnapply a eu true (objectApply a e ids file m0).2.1 (objectApply a e ids file m0).1).1 = m0 := by
  obtain ⟨r1, r2, r3⟩ := C02_failed_apply_rolled_back_partial A hflag halloc hfail
    (fun m' x _ => by rw [hquiet2]) hroll
  obtain ⟨-, mw, hw1, hw2⟩ := objectApply_partly (ids := ids) A hflag halloc
  funext x
  by_cases hx : InRange x kpta l.totalMem
  · rw [(r2 x hx).1, (r2 x hx).2]
  · by_cases he : IsEntryByte a (parseInfos image v.infoOff v.ninfo) x
    · exact r1 x he
    · rw [r3 x hx he, hquiet2]
      have h := hw2 x hx he
      rw [hquiet1] at h
      rcases h with h | h <;> rw [h, hw1 x hx]

/-- C02, failure before the patch memory is allocated: the target's memory is untouched by the attempt. -/
theorem C02_failed_before_allocation (a : Arch) (e : ApplyEnv) (ids : List (List Byte)) (file : List Byte)
    (m0 : Mem) (halloc : e.region = none) :
    (objectApply a e ids file m0).1 = m0 ∧ (objectApply a e ids file m0).2.2 = false := by
  unfold objectApply
  split
  · exact ⟨rfl, rfl⟩
  · split
    · exact ⟨rfl, rfl⟩
    · split
      · exact ⟨rfl, rfl⟩
      · rw [halloc]
        simp only
        split
        · exact ⟨rfl, rfl⟩
        · exact ⟨rfl, rfl⟩

namespace ExRollback
open ExRestore

/-- Apply to `ExRestore.mem` failing because no gap is near enough. -/
def noRegion : ApplyEnv := { applyEnv with region := none }
/-- A process whose code sits at a low address. -/
def lowMem : Mem := fun x => if 0x1000 ≤ x ∧ x < 0x1100 then some 0x90 else none

end ExRollback

open ExRestore ExRollback in
/-- C02 as stated is false of the code: when no memory could be allocated (`o->kpta` is still 0) the
"rollback" unmaps `[0, kpatch_total_mem_sz)` of the target, which here contains the code. -/
theorem C02_violated_when_allocation_fails :
    (objectApply .x86 noRegion [] ExRestore.file lowMem).2.2 = false ∧
    (objectUnapply .x86 unapplyEnv true (objectApply .x86 noRegion [] ExRestore.file lowMem).2.1
      (objectApply .x86 noRegion [] ExRestore.file lowMem).1).2 = true ∧
    lowMem 0x1010 = some 0x90 ∧
    (objectUnapply .x86 unapplyEnv true (objectApply .x86 noRegion [] ExRestore.file lowMem).2.1
      (objectApply .x86 noRegion [] ExRestore.file lowMem).1).1 0x1010 = none := by
  decide +kernel

/-! ### A concrete run: the write of the jump is cut after two bytes, the rollback succeeds -/
namespace ExRollback
open ExRestore

def cutEnv : ApplyEnv := { applyEnv with hunk := fun _ => ⟨100, 100, 2⟩ }

example : (objectApply .x86 cutEnv [] ExRestore.file mem).2.2 = false ∧
    (objectApply .x86 cutEnv [] ExRestore.file mem).2.1.kpta = 0x20000 ∧
    (objectApply .x86 cutEnv [] ExRestore.file mem).1 0x1000 ≠ mem 0x1000 ∧
    (objectUnapply .x86 unapplyEnv true (objectApply .x86 cutEnv [] ExRestore.file mem).2.1
      (objectApply .x86 cutEnv [] ExRestore.file mem).1).2 = true := by decide +kernel

example : FileRecordsUnflagged ExRestore.file ⟨0, 1, 0⟩ := by
  unfold FileRecordsUnflagged
  decide +kernel

end ExRollback

end Verif
