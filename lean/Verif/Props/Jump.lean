import Verif.Proof.Hunk
import Verif.Spec.Cpu
/-
C04-C07: the code left at the entry of a patched function transfers control to the replacement.

`m` is the memory before the hunk is installed, `f` what the kernel does with the remote accesses,
`undo` the address of the undo area, `n` the number of the hunk.  The instruction semantics are those
of `Verif/Spec/Cpu.lean`.
-/
namespace Verif

/-- C04. -/
theorem C04_x86_entry_jumps_to_replacement (f : HunkFault) (m : Mem) (undo n : Nat) (i : Info)
    (hold : ¬ (i.daddr = 0 ∧ i.dlen = 0))
    (hreach : -(2 ^ 31 : Int) ≤ (i.saddr : Int) - (i.daddr + 5) ∧ (i.saddr : Int) - (i.daddr + 5) < 2 ^ 31) :
    ((applyHunk .x86 f m undo n i).2.2 = true →
      ∃ bs, bs.length = 5 ∧ Holds (applyHunk .x86 f m undo n i).1 i.daddr bs ∧
        Cpu.x86Jmp (BitVec.ofNat 64 i.daddr) bs = some (BitVec.ofNat 64 i.saddr)) ∧
    (∀ x, ¬ InRange x i.daddr 5 → ¬ InRange x (undo + n * 5) 5 →
      (applyHunk .x86 f m undo n i).1 x = m x) := by
  have hnew : i.isNew = false := by simp [Info.isNew]; omega
  refine ⟨?_, (applyHunk_spec .x86 f m undo n i).2.1⟩
  intro hok
  obtain ⟨_, code, hc, hh⟩ := applyHunk_ok _ _ _ _ _ _ hnew hok
  refine ⟨code, hunkCode_length _ _ _ _ hc, hh, ?_⟩
  simp only [Arch.hunkCode, Option.some.injEq] at hc
  subst hc
  have e : (BitVec.ofNat 64 i.saddr - BitVec.ofNat 64 i.daddr - 5#64).toInt = (i.saddr : Int) - (i.daddr + 5) := by
    have := sub_ofNat_toInt (d := i.daddr + 5) (s := i.saddr) (by omega) (by omega)
    rw [BitVec.sub_sub, ← BitVec.ofNat_add, this]; omega
  exact x86_jump _ _ (by rw [e]; exact hreach.1) (by rw [e]; exact hreach.2)

/-- C05. -/
theorem C05_aarch64_entry_jumps_to_replacement (f : HunkFault) (m : Mem) (undo n : Nat) (i : Info)
    (hold : ¬ (i.daddr = 0 ∧ i.dlen = 0))
    (hd : i.daddr % 4 = 0) (hs : i.saddr % 4 = 0)
    (hreach : -(2 ^ 27 : Int) ≤ (i.saddr : Int) - i.daddr ∧ (i.saddr : Int) - i.daddr < 2 ^ 27) :
    ((applyHunk .aarch64 f m undo n i).2.2 = true →
      ∃ bs, bs.length = 4 ∧ Holds (applyHunk .aarch64 f m undo n i).1 i.daddr bs ∧
        Cpu.aarch64B (BitVec.ofNat 64 i.daddr) bs = some (BitVec.ofNat 64 i.saddr)) ∧
    (∀ x, ¬ InRange x i.daddr 4 → ¬ InRange x (undo + n * 4) 4 →
      (applyHunk .aarch64 f m undo n i).1 x = m x) := by
  have hnew : i.isNew = false := by simp [Info.isNew]; omega
  refine ⟨?_, (applyHunk_spec .aarch64 f m undo n i).2.1⟩
  intro hok
  obtain ⟨_, code, hc, hh⟩ := applyHunk_ok _ _ _ _ _ _ hnew hok
  refine ⟨code, hunkCode_length _ _ _ _ hc, hh, ?_⟩
  simp only [Arch.hunkCode, Option.some.injEq] at hc
  subst hc
  have e := sub_ofNat_toInt (d := i.daddr) (s := i.saddr) (by omega) (by omega)
  exact aarch64_jump _ _ (sub_ofNat_mod4 hd hs) (by rw [e]; exact hreach.1) (by rw [e]; exact hreach.2)

/-- C06: no hypothesis on the distance.  Either the hunk is refused and nothing but the undo slot has
been written, or the write of the branch failed in the kernel and the record is marked so that the
rollback restores it, or a branch to exactly the replacement is in place.
The replacement is a valid (word aligned) code address. -/
theorem C06_loongarch_entry_jumps_or_refused (f : HunkFault) (m : Mem) (undo n : Nat) (i : Info)
    (hold : ¬ (i.daddr = 0 ∧ i.dlen = 0))
    (hs : i.saddr % 4 = 0) :
    ((applyHunk .loongarch64 f m undo n i).2.2 = true →
      ∃ bs, bs.length = 4 ∧ Holds (applyHunk .loongarch64 f m undo n i).1 i.daddr bs ∧
        Cpu.loongB (BitVec.ofNat 64 i.daddr) bs = some (BitVec.ofNat 64 i.saddr)) ∧
    ((applyHunk .loongarch64 f m undo n i).2.2 = false →
      (applyHunk .loongarch64 f m undo n i).2.1.applied = true ∨
      ∀ x, ¬ InRange x (undo + n * 4) 4 → (applyHunk .loongarch64 f m undo n i).1 x = m x) ∧
    (∀ x, ¬ InRange x i.daddr 4 → ¬ InRange x (undo + n * 4) 4 →
      (applyHunk .loongarch64 f m undo n i).1 x = m x) ∧
    -- in particular: out of reach means refused (user-space addresses are below 2^63)
    (i.daddr < 2 ^ 63 → i.saddr < 2 ^ 63 →
      (i.saddr : Int) - i.daddr < -(2 ^ 27 : Int) ∨ 2 ^ 27 ≤ (i.saddr : Int) - i.daddr →
      (applyHunk .loongarch64 f m undo n i).2.2 = false) := by
  have hnew : i.isNew = false := by simp [Info.isNew]; omega
  obtain ⟨_, hframe, _, hcase⟩ := applyHunk_spec .loongarch64 f m undo n i
  have key : ∀ code, Arch.loongarch64.hunkCode (BitVec.ofNat 64 i.daddr) (BitVec.ofNat 64 i.saddr) = some code →
      -(2 ^ 27 : Int) ≤ (BitVec.ofNat 64 i.saddr - BitVec.ofNat 64 i.daddr).toInt ∧
      (BitVec.ofNat 64 i.saddr - BitVec.ofNat 64 i.daddr).toInt < 2 ^ 27 ∧
      code = le32 (loongInst (loongImm26 (BitVec.ofNat 64 i.daddr) (BitVec.ofNat 64 i.saddr))) := by
    intro code hc
    simp only [Arch.hunkCode, loongCode] at hc
    split at hc
    · contradiction
    · rename_i hr
      simp only [Option.some.injEq] at hc
      simp only [loongOutOfRange, loongImm26, BitVec.toInt_sshiftRight, Int.shiftRight_eq_div_pow,
        Bool.or_eq_true, decide_eq_true_eq] at hr
      refine ⟨by omega, by omega, hc.symm⟩
  refine ⟨?_, ?_, hframe, ?_⟩
  · intro hok
    obtain ⟨hal, code, hc, hh⟩ := applyHunk_ok _ _ _ _ _ _ hnew hok
    refine ⟨code, hunkCode_length _ _ _ _ hc, hh, ?_⟩
    obtain ⟨h1, h2, h3⟩ := key code hc
    simp only [Arch.alignOk, beq_iff_eq] at hal
    subst h3
    exact loong_jump _ _ (sub_ofNat_mod4 hal hs) h1 h2
  · intro hf
    rcases hcase hnew with ⟨_, _, h⟩ | ⟨h, _⟩
    · right; exact h
    · left; rw [h]
  · intro hd63 hs63 hfar
    cases hr : (applyHunk .loongarch64 f m undo n i).2.2 with
    | false => rfl
    | true =>
      obtain ⟨hal, code, hc, hh⟩ := applyHunk_ok _ _ _ _ _ _ hnew hr
      obtain ⟨h1, h2, h3⟩ := key code hc
      have e := sub_ofNat_toInt (d := i.daddr) (s := i.saddr) (by omega) (by omega)
      omega

/-- C07. -/
theorem C07_riscv_entry_jumps_to_replacement (f : HunkFault) (m : Mem) (undo n : Nat) (i : Info)
    (hold : ¬ (i.daddr = 0 ∧ i.dlen = 0)) (hs : i.saddr % 2 = 0)
    (hreach : -(2 ^ 31 : Int) ≤ (i.saddr : Int) - i.daddr ∧ (i.saddr : Int) - i.daddr < 2 ^ 31 - 2 ^ 11) :
    ((applyHunk .riscv64 f m undo n i).2.2 = true →
      ∃ bs, bs.length = 8 ∧ Holds (applyHunk .riscv64 f m undo n i).1 i.daddr bs ∧
        Cpu.rvFarJump (BitVec.ofNat 64 i.daddr) bs = some (BitVec.ofNat 64 i.saddr)) ∧
    (∀ x, ¬ InRange x i.daddr 8 → ¬ InRange x (undo + n * 8) 8 →
      (applyHunk .riscv64 f m undo n i).1 x = m x) := by
  have hnew : i.isNew = false := by simp [Info.isNew]; omega
  refine ⟨?_, (applyHunk_spec .riscv64 f m undo n i).2.1⟩
  intro hok
  obtain ⟨_, code, hc, hh⟩ := applyHunk_ok _ _ _ _ _ _ hnew hok
  refine ⟨code, hunkCode_length _ _ _ _ hc, hh, ?_⟩
  simp only [Arch.hunkCode, Option.some.injEq] at hc
  subst hc
  have e := sub_ofNat_toInt (d := i.daddr) (s := i.saddr) (by omega) (by omega)
  exact riscv_jump _ _ (by simp; omega) (by rw [e]; exact hreach.1) (by rw [e]; exact hreach.2)

/-! Non-vacuity: a process with code at 0x400000 and patch memory at 0x500000; installing a hunk
succeeds on each architecture and the hypotheses of C04-C07 hold. -/

/-- Example memory: everything below 0x600000 is mapped, byte = low bits of the address. -/
def exMem : Mem := fun x => if x < 0x600000 then some (BitVec.ofNat 8 x) else none
/-- Example kernel that delivers everything. -/
def exFault : HunkFault := ⟨100, 100, 100⟩
/-- Example record. -/
def exInfo : Info := { daddr := 0x400100, saddr := 0x500040, dlen := 32, slen := 48 }

example : (applyHunk .x86 exFault exMem 0x501000 3 exInfo).2.2 = true ∧
    ¬ (exInfo.daddr = 0 ∧ exInfo.dlen = 0) ∧
    -(2 ^ 31 : Int) ≤ (exInfo.saddr : Int) - (exInfo.daddr + 5) ∧
    (exInfo.saddr : Int) - (exInfo.daddr + 5) < 2 ^ 31 := by decide
example : (applyHunk .aarch64 exFault exMem 0x501000 3 exInfo).2.2 = true ∧
    exInfo.daddr % 4 = 0 ∧ exInfo.saddr % 4 = 0 ∧
    -(2 ^ 27 : Int) ≤ (exInfo.saddr : Int) - exInfo.daddr ∧ (exInfo.saddr : Int) - exInfo.daddr < 2 ^ 27 := by
  decide
example : (applyHunk .loongarch64 exFault exMem 0x501000 3 exInfo).2.2 = true := by decide
/-- and a refused one -/
example : (applyHunk .loongarch64 exFault exMem 0x501000 3 { exInfo with saddr := 0x40500040 }).2.2 = false := by
  decide
example : (applyHunk .riscv64 exFault exMem 0x501000 3 exInfo).2.2 = true ∧ exInfo.saddr % 2 = 0 ∧
    (exInfo.saddr : Int) - exInfo.daddr < 2 ^ 31 - 2 ^ 11 := by decide

end Verif
