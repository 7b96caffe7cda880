import Verif.Proof.Runs
import Verif.Proof.PatchLoad
import Verif.Props.PatchElf
import Verif.Spec.Cpu
/-
C85: a patch that can be applied is applied.
-/
namespace Verif

theorem hunkCode_some {a : Arch} {d s : Nat}
    (h : a = .loongarch64 → 4 ∣ d ∧ -(2 ^ 27) ≤ (s : Int) - d ∧ (s : Int) - d < 2 ^ 27 - 4) :
    a.alignOk d = true ∧ a.hunkCode (BitVec.ofNat 64 d) (BitVec.ofNat 64 s) ≠ none := by
  cases a with
  | x86 => exact ⟨rfl, by simp [Arch.hunkCode]⟩
  | aarch64 => exact ⟨rfl, by simp [Arch.hunkCode]⟩
  | riscv64 => exact ⟨rfl, by simp [Arch.hunkCode]⟩
  | loongarch64 =>
    obtain ⟨h1, h2, h3⟩ := h rfl
    refine ⟨by simp only [Arch.alignOk]; simp; omega, ?_⟩
    have e : (BitVec.ofNat 64 s - BitVec.ofNat 64 d).toInt = (s : Int) - d := by
      rw [BitVec.toInt_sub, BitVec.toInt_ofNat', BitVec.toInt_ofNat', Int.sub_bmod_bmod, Int.bmod_sub_bmod]
      exact Int.bmod_eq_of_le (by omega) (by omega)
    have : loongOutOfRange (loongImm26 (BitVec.ofNat 64 d) (BitVec.ofNat 64 s)) = false := by
      unfold loongOutOfRange loongImm26
      rw [BitVec.toInt_sshiftRight, e, Int.shiftRight_eq_div_pow]
      rw [Bool.or_eq_false_iff, decide_eq_false_iff_not, decide_eq_false_iff_not]
      omega
    simp [Arch.hunkCode, loongCode, this]

/-- C85: a patch is applied if nothing fails.  Partial: on LoongArch the replacement is not at the largest distance the branch
can span (`C85_violated_loongarch_reach`). -/
theorem C85_applied_partial {a : Arch} {ra : RelocArch} {pe : PrepEnv} {e : ApplyEnv} {ids : List (List Byte)} {file : List Byte}
    {m : Mem} {o : ElfObj} {w : Rela Nat → Nat} {n : Nat} {img : List Byte} {v : ElfView} {kpta : Nat} {image : List Byte} {l : Layout}
    (C : LoadCase a ra pe e file m o w n img v kpta image l) (N : NothingFails a (applyFileEnv a ra pe e file) ids file image v.undef)
    (hj : a = .loongarch64 → ∀ i ∈ parseInfos image v.infoOff v.ninfo, i.isOld →
      4 ∣ i.daddr ∧ -(2 ^ 27) ≤ (i.saddr : Int) - i.daddr ∧ (i.saddr : Int) - i.daddr < 2 ^ 27 - 4) :
    (objectApplyFile a ra pe e ids file m).2.2 = true :=
  objectApply_runs C.apply N fun i hi ho => hunkCode_some fun ha => hj ha i hi ho

/-- C85 is violated on LoongArch for a replacement that is 2^27 - 4 bytes behind the old function: `b` can jump there, and the
tool refuses to install the jump. -/
theorem C85_violated_loongarch_reach : ∃ (d s : BitVec 64) (bs : List Byte), bs.length = 4 ∧ Cpu.loongB d bs = some s ∧
    Arch.loongarch64.alignOk d.toNat = true ∧ Arch.loongarch64.hunkCode d s = none :=
  ⟨0x120000000, 0x127fffffc, [0xff, 0xfd, 0xff, 0x53], by decide +kernel⟩

end Verif
