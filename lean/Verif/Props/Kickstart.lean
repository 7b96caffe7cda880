import Verif.Model.Kickstart
/-
C98: a program that is announced by the wrapper of `execve`.
-/
namespace Verif

/-! ### Specification -/

/-- Stopped after the one-byte breakpoint of x86: the processor has executed it, and the program counter is behind it. -/
def AfterInt3 (s : KStop) : Prop :=
  s.pc ≠ -1#64 ∧ ∃ w, s.peek (s.pc - 1) = some w ∧ w ≠ -1#64 ∧ w.toNat % 256 = 0xcc

/-- Stopped elsewhere: the byte before the program counter can be read and is not the breakpoint. -/
def NotAfterInt3 (s : KStop) : Prop :=
  s.pc ≠ -1#64 ∧ ∃ w, s.peek (s.pc - 1) = some w ∧ w ≠ -1#64 ∧ w.toNat % 256 ≠ 0xcc

/-- Stopped at a breakpoint of four bytes: on AArch64, RISC-V and LoongArch the program counter stays at it. -/
def AtBreak (insn : BitVec 32) (s : KStop) : Prop := ∃ w, s.peek s.pc = some w ∧ w.toNat % 2 ^ 32 = insn.toNat

/-- `brk #0` of AArch64, `ebreak` of RISC-V, `break 0` of LoongArch. -/
def brkA64 : BitVec 32 := 0xd4200000#32
def ebreak : BitVec 32 := 0x00100073#32
def breakLoong : BitVec 32 := 0x002a0000#32

/-! ### Proofs -/

theorem byte_iff (w : BitVec 64) : w.setWidth 8 = 0xcc#8 ↔ w.toNat % 256 = 0xcc := by
  rw [← BitVec.toNat_inj]; simp

theorem word_iff (w : BitVec 64) (v : BitVec 32) : w.setWidth 32 = v ↔ w.toNat % 2 ^ 32 = v.toNat := by
  rw [← BitVec.toNat_inj]; simp

theorem brkCheck_yes_x86 {junk : BitVec 24} {s : KStop} : brkCheck .x86 junk s = .yes ↔ AfterInt3 s := by
  unfold brkCheck AfterInt3
  constructor
  · intro h
    dsimp only at h
    split at h
    · cases h
    rename_i hp
    refine ⟨hp, ?_⟩
    split at h
    · cases h
    rename_i w hw
    refine ⟨w, hw, ?_⟩
    split at h
    · cases h
    rename_i h1
    split at h
    · rename_i h2; exact ⟨h1, (byte_iff w).1 h2⟩
    · cases h
  · rintro ⟨h1, w, h2, h3, h4⟩
    simp only [h1, h2, h3, (byte_iff w).2 h4, if_true, if_false]

theorem brkCheck_no_x86 {junk : BitVec 24} {s : KStop} (h : NotAfterInt3 s) : brkCheck .x86 junk s = .no := by
  obtain ⟨h1, w, h2, h3, h4⟩ := h
  have : w.setWidth 8 ≠ 0xcc#8 := fun e => h4 ((byte_iff w).1 e)
  simp only [brkCheck, h1, h2, h3, this, if_false]

theorem waitBrk_skip {isa : Isa} {junk : BitVec 24} {pre : List KStop} {es : List (Option KStop)} (h : ∀ s ∈ pre, brkCheck isa junk s = .no) :
    waitBrk isa junk (pre.map some ++ es) = waitBrk isa junk es := by
  induction pre with
  | nil => rfl
  | cons s pre ih =>
    show waitBrk isa junk (some s :: (pre.map some ++ es)) = _
    rw [waitBrk, h s (by simp)]
    exact ih fun t ht => h t (by simp [ht])

theorem waitBrk_seen {isa : Isa} {junk : BitVec 24} {es left : List (Option KStop)} (h : waitBrk isa junk es = .seen left) :
    ∃ (pre : List KStop) (b : KStop), es = pre.map some ++ some b :: left ∧ brkCheck isa junk b = .yes ∧ ∀ s ∈ pre, brkCheck isa junk s = .no := by
  induction es with
  | nil => cases h
  | cons e es ih =>
    cases e with
    | none => cases h
    | some s =>
      rw [waitBrk] at h
      split at h
      · cases h
      · rename_i hs
        obtain ⟨pre, b, e, h1, h2⟩ := ih h
        exact ⟨s :: pre, b, by rw [e]; rfl, h1, by
          intro t ht
          rcases List.mem_cons.1 ht with rfl | ht
          · exact hs
          · exact h2 t ht⟩
      · rename_i hs
        cases h
        exact ⟨[], s, rfl, hs, fun t ht => nomatch ht⟩

theorem kickstart_of_seen {isa : Isa} {junk : BitVec 24} {g pid : Nat} {ts : List Nat} (hp : pid ∈ g :: ts) (hnd : (g :: ts).Nodup)
    {stops left : List (Option KStop)} {ex : KStop} (h : waitBrk isa junk stops = .seen (some ex :: left)) :
    kickstart isa junk (g :: ts) pid true (some g) (fun _ => true) stops = .ok g [g] ts left := by
  have e : (if (g :: ts).head? = some pid then some pid else some g) = some g := by
    by_cases hg : g = pid
    · subst hg; simp
    · simp [hg]
  have hnd' := List.nodup_cons.1 hnd
  have f1 : (g :: ts).filter (· = g) = [g] := by
    rw [List.filter_cons, if_pos (by simp), List.filter_eq_nil_iff.2]
    intro x hx hg
    simp only [decide_eq_true_eq] at hg
    exact hnd'.1 (hg ▸ hx)
  have f2 : (g :: ts).filter (· ≠ g) = ts := by
    rw [List.filter_cons, if_neg (by simp), List.filter_eq_self]
    intro x hx
    simp only [decide_eq_true_eq]
    intro hg
    exact hnd'.1 (hg ▸ hx)
  unfold kickstart
  rw [if_neg (not_not_intro hp), if_neg (by simp), h]
  simp only [e, f1, f2, if_true]

/-! ### Theorems -/

/-- C98: on x86, if the announced thread stops anywhere but behind a breakpoint any number of times, then behind the breakpoint
of the wrapper, and then at the start of the new program: the function returns at this last stop, with the process and not the
thread as the target, its first thread attached and all other threads detached. -/
theorem C98_taken_at_exec_partial (junk : BitVec 24) {g pid : Nat} {ts : List Nat} (hp : pid ∈ g :: ts) (hnd : (g :: ts).Nodup)
    {pre : List KStop} {b ex : KStop} (hpre : ∀ s ∈ pre, NotAfterInt3 s) (hb : AfterInt3 b) (left : List (Option KStop)) :
    kickstart .x86 junk (g :: ts) pid true (some g) (fun _ => true) (pre.map some ++ some b :: some ex :: left) = .ok g [g] ts left := by
  refine kickstart_of_seen hp hnd (ex := ex) ?_
  rw [waitBrk_skip fun s hs => brkCheck_no_x86 (hpre s hs), waitBrk, brkCheck_yes_x86.2 hb]

/-- C98: on x86 a success means that the wrapper had been told to go on, reached the breakpoint, and that one more stop was
waited for; every thread other than the process is detached, and none is lost. -/
theorem C98_only_after_breakpoint {junk : BitVec 24} {threads : List Nat} {pid p : Nat} {sent : Bool} {tgid : Option Nat} {memOk : Nat → Bool}
    {stops left : List (Option KStop)} {att det : List Nat} (h : kickstart .x86 junk threads pid sent tgid memOk stops = .ok p att det left) :
    sent = true ∧ pid ∈ threads ∧ (p = pid ∨ tgid = some p) ∧ memOk p = true ∧
    (∀ t, t ∈ att ↔ t ∈ threads ∧ t = p) ∧ (∀ t, t ∈ det ↔ t ∈ threads ∧ t ≠ p) ∧
    ∃ (pre : List KStop) (b ex : KStop), stops = pre.map some ++ some b :: some ex :: left ∧ AfterInt3 b ∧ ∀ s ∈ pre, ¬ AfterInt3 s := by
  unfold kickstart at h
  split at h
  · cases h
  rename_i hp
  split at h
  · cases h
  rename_i hs
  split at h
  · cases h
  · cases h
  rename_i es hw
  split at h
  · cases h
  rename_i q hq
  split at h
  · cases h
  · cases h
  rename_i ex es' 
  split at h
  · rename_i hm
    cases h
    obtain ⟨pre, b, e, h1, h2⟩ := waitBrk_seen hw
    refine ⟨by simpa using hs, by simpa using hp, ?_, hm, by simp, by simp, pre, b, ex, e, brkCheck_yes_x86.1 h1, fun s hs' hA => ?_⟩
    · split at hq
      · exact Or.inl (Option.some.inj hq).symm
      · exact Or.inr hq
    · have := h2 s hs'
      rw [brkCheck_yes_x86.2 hA] at this
      cases this
  · cases h

/-- C98 is violated: any stop between the breakpoint and the start of the new program, of a signal for example, is taken for the
latter; the function returns while the wrapper has not called `execve` yet. -/
theorem C98_violated_stop (junk : BitVec 24) {g : Nat} {b between ex : KStop} (hb : AfterInt3 b) (left : List (Option KStop)) :
    kickstart .x86 junk [g] g true (some g) (fun _ => true) (some b :: some between :: some ex :: left) = .ok g [g] [] (some ex :: left) :=
  C98_taken_at_exec_partial junk (pre := []) (by simp) (by simp) (by simp) hb _

/-- C98 is violated on aarch64: the byte before the program counter is looked at, as on x86, but the program counter is at the
breakpoint.  However often the thread stops there, the function goes on waiting, unless the last byte of the instruction before
happens to be `0xcc`. -/
theorem C98_violated_aarch64 (junk : BitVec 24) (g : Nat) (s : KStop) (_ : AtBreak brkA64 s) (hs : NotAfterInt3 s) (n : Nat) :
    kickstart .aarch64 junk [g] g true (some g) (fun _ => true) ((List.replicate n s).map some) = .waiting := by
  have hno : brkCheck .aarch64 junk s = .no := brkCheck_no_x86 (junk := junk) hs
  have := waitBrk_skip (isa := .aarch64) (junk := junk) (pre := List.replicate n s) (es := []) (by
    intro t ht; rw [List.eq_of_mem_replicate ht]; exact hno)
  rw [List.append_nil] at this
  unfold kickstart
  rw [if_neg (by simp), if_neg (by simp), this]
  rfl

/-- C98 is violated on loongarch64: the instruction is compared with four bytes that begin with `0xcc`, whatever follows, and
`break 0` is other bytes. -/
theorem C98_violated_loongarch (junk : BitVec 24) (g : Nat) (s : KStop) (hs : AtBreak breakLoong s) (n : Nat) :
    kickstart .loongarch junk [g] g true (some g) (fun _ => true) ((List.replicate n s).map some) = .waiting := by
  have hno : brkCheck .loongarch junk s = .no := by
    obtain ⟨w, h1, h2⟩ := hs
    have h3 : w.setWidth 32 = breakLoong := (word_iff w _).2 h2
    have h4 : w.setWidth 32 ≠ breakWord .loongarch junk := by
      rw [h3]
      intro e
      have e' : breakLoong.getLsbD 2 = (junk ++ 0xcc#8).getLsbD 2 := congrArg (fun v : BitVec 32 => v.getLsbD 2) e
      rw [BitVec.getLsbD_append, if_pos (by decide)] at e'
      exact absurd e' (by decide)
    simp only [brkCheck, h1, h4, if_false]
  have := waitBrk_skip (isa := .loongarch) (junk := junk) (pre := List.replicate n s) (es := []) (by
    intro t ht; rw [List.eq_of_mem_replicate ht]; exact hno)
  rw [List.append_nil] at this
  unfold kickstart
  rw [if_neg (by simp), if_neg (by simp), this]
  rfl

/-- C98 is violated on riscv64: the breakpoint is recognised, but the thread continues at it and stops there again, which is
taken for the start of the new program. -/
theorem C98_violated_riscv (junk : BitVec 24) (g : Nat) (s : KStop) (hs : AtBreak ebreak s) (left : List (Option KStop)) :
    kickstart .riscv junk [g] g true (some g) (fun _ => true) (some s :: some s :: left) = .ok g [g] [] left := by
  refine kickstart_of_seen (by simp) (by simp) (ex := s) ?_
  have hy : brkCheck .riscv junk s = .yes := by
    obtain ⟨w, h1, h2⟩ := hs
    have h3 : w.setWidth 32 = breakWord .riscv junk := (word_iff w _).2 h2
    simp only [brkCheck, h1, h3, if_true]
  rw [waitBrk, hy]

/-! ### Concrete cases -/

/-- Stops of the wrapper: in `recv`, behind its breakpoint, and at the start of the new program. -/
def exRecv : KStop := ⟨0x7f0000001002, fun a => if a = 0x7f0000001001 then some 0x3dfffff0003d4805 else none⟩
def exInt3 : KStop := ⟨0x7f0000002001, fun a => if a = 0x7f0000002000 then some 0x00841f0f90cc else none⟩
def exEntry : KStop := ⟨0x7f0000100000, fun _ => some 0⟩

/-- Thread 12 of process 10, with threads 10, 11, 12 attached, is announced, is stopped in `recv` twice, at the breakpoint, and
at the start of the new program. -/
example : kickstart .x86 0 [10, 11, 12] 12 true (some 10) (fun _ => true) [some exRecv, some exRecv, some exInt3, some exEntry] =
    .ok 10 [10] [11, 12] [] :=
  C98_taken_at_exec_partial 0 (pre := [exRecv, exRecv]) (by decide) (by decide)
    (by
      intro s hs
      have : s = exRecv := by simpa using hs
      subst this
      exact ⟨by decide, 0x3dfffff0003d4805, by decide, by decide, by decide⟩)
    ⟨by decide, 0x00841f0f90cc, by decide, by decide, by decide⟩ []

/-- It is interrupted before `execve`: the last stop is not waited for. -/
example : kickstart .x86 0 [10] 10 true (some 10) (fun _ => true) [some exInt3, some exRecv, some exEntry] = .ok 10 [10] [] [some exEntry] :=
  C98_violated_stop 0 ⟨by decide, 0x00841f0f90cc, by decide, by decide, by decide⟩ []

/-- At `brk #0`, behind `bl recv`, on aarch64; at `break 0` on loongarch64; at `ebreak` on riscv64. -/
def exBrk (insn : BitVec 32) : KStop :=
  ⟨0xaaaa0000a10c, fun a => if a = 0xaaaa0000a10b then some (0xd50320#24 ++ insn ++ 0x97#8) else if a = 0xaaaa0000a10c then some (0x1f2003d5#32 ++ insn) else none⟩

example (n : Nat) : kickstart .aarch64 0 [10] 10 true (some 10) (fun _ => true) ((List.replicate n (exBrk brkA64)).map some) = .waiting :=
  C98_violated_aarch64 0 10 _ ⟨0x1f2003d5#32 ++ brkA64, by decide, by decide⟩ ⟨by decide, 0xd50320#24 ++ brkA64 ++ 0x97#8, by decide, by decide, by decide⟩ n

example (n : Nat) : kickstart .loongarch 0 [10] 10 true (some 10) (fun _ => true) ((List.replicate n (exBrk breakLoong)).map some) = .waiting :=
  C98_violated_loongarch 0 10 _ ⟨0x1f2003d5#32 ++ breakLoong, by decide, by decide⟩ n

example : kickstart .riscv 0 [10] 10 true (some 10) (fun _ => true) [some (exBrk ebreak), some (exBrk ebreak)] = .ok 10 [10] [] [] :=
  C98_violated_riscv 0 10 _ ⟨0x1f2003d5#32 ++ ebreak, by decide, by decide⟩ []

end Verif
