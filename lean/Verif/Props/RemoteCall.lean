import Verif.Spec.RemoteCpu
import Verif.Spec.Memory
import Verif.Props.Ptrace
/-
C65: remote system calls.  C66: remote calls of ifunc resolvers.
-/
namespace Verif

/-- The state in which `wait_for_stop` finds the thread. -/
def stopState (evs : List (WaitEv × (Mem × Cpu))) : Option (Mem × Cpu) :=
  (waitForStop (evs.map fun e => some e.1)).bind fun k => evs[k]?.map (·.2)

theorem remoteRun_stop (isa : Isa) (w : CpuWorld) (sched : List (Nat × Nat)) (m : Mem) (c : Cpu) :
    remoteRun isa w sched m c =
      match stopState (threadStops isa w sched (m, c)) with
      | none => (m, c, false)
      | some s => (s.1, s.2, true) := by
  unfold remoteRun stopState
  dsimp only
  cases waitForStop ((threadStops isa w sched (m, c)).map fun e => some e.1) with
  | none => rfl
  | some k =>
    simp only [Option.bind_some]
    cases (threadStops isa w sched (m, c))[k]? <;> rfl

theorem stopState_cons (sig : Nat) (s : Mem × Cpu) (evs : List (WaitEv × (Mem × Cpu))) :
    stopState ((.stopped sig, s) :: evs) = if sig = 19 ∨ sig = 5 then some s else stopState evs := by
  unfold stopState
  rw [List.map_cons, waitForStop]
  split
  · simp
  · cases waitForStop (evs.map fun e => some e.1) with
    | none => rfl
    | some k => simp

/-- A thread that stands at a breakpoint stays there. -/
theorem stopState_at (isa : Isa) (w : CpuWorld) (s : Mem × Cpu) (h : cpuStep isa w s = none) :
    ∀ sched : List (Nat × Nat), (∀ x ∈ sched, x.2 ≠ 19 ∧ x.2 ≠ 5) → stopState (threadStops isa w sched s) = some s := by
  intro sched
  induction sched with
  | nil =>
    intro _
    have : cpuSteps isa w 3 s = (s, true) := by rw [cpuSteps, h]
    rw [threadStops, this, if_pos rfl, stopState_cons, if_pos (Or.inr rfl)]
  | cons x sched ih =>
    intro hx
    obtain ⟨n, sig⟩ := x
    rw [threadStops]
    cases n with
    | zero =>
      have h2 := hx (0, sig) (by simp)
      simp only [cpuSteps, Bool.false_eq_true, if_false]
      rw [stopState_cons, if_neg (by omega)]
      exact ih fun y hy => hx y (by simp [hy])
    | succ n =>
      have : cpuSteps isa w (n + 1) s = (s, true) := by rw [cpuSteps, h]
      rw [this, if_pos rfl, stopState_cons, if_pos (Or.inr rfl)]

/-- A thread one instruction before a breakpoint is found at the breakpoint. -/
theorem stopState_before (isa : Isa) (w : CpuWorld) (s s' : Mem × Cpu) (h : cpuStep isa w s = some s')
    (h' : cpuStep isa w s' = none) :
    ∀ sched : List (Nat × Nat), (∀ x ∈ sched, x.2 ≠ 19 ∧ x.2 ≠ 5) → stopState (threadStops isa w sched s) = some s' := by
  intro sched
  induction sched with
  | nil =>
    intro _
    have : cpuSteps isa w 3 s = (s', true) := by rw [cpuSteps, h]; dsimp only; rw [cpuSteps, h']
    rw [threadStops, this, if_pos rfl, stopState_cons, if_pos (Or.inr rfl)]
  | cons x sched ih =>
    intro hx
    obtain ⟨n, sig⟩ := x
    have h2 := hx (n, sig) (by simp)
    dsimp only at h2
    rw [threadStops]
    rcases n with _ | _ | n
    · simp only [cpuSteps, Bool.false_eq_true, if_false]
      rw [stopState_cons, if_neg (by omega)]
      exact ih fun y hy => hx y (by simp [hy])
    · simp only [cpuSteps, h, Bool.false_eq_true, if_false]
      rw [stopState_cons, if_neg (by omega)]
      exact stopState_at isa w s' h' sched fun y hy => hx y (by simp [hy])
    · have : cpuSteps isa w (n + 1 + 1) s = (s', true) := by rw [cpuSteps, h]; dsimp only; rw [cpuSteps, h']
      rw [this, if_pos rfl, stopState_cons, if_pos (Or.inr rfl)]

theorem holds_getD {m : Mem} {a : Nat} {bs : List Byte} (h : Holds m a bs) (k : Nat) (hk : k < bs.length) :
    m (a + k) = some (bs[k]) := h k hk

/-- The first bytes read at a place that holds known bytes. -/
theorem pread4 {m : Mem} {a : Nat} {b0 b1 b2 b3 : Byte} (h0 : m a = some b0) (h1 : m (a + 1) = some b1)
    (h2 : m (a + 2) = some b2) (h3 : m (a + 3) = some b3) : pread 4 m a 4 = [b0, b1, b2, b3] := by
  simp [pread, h0, h1, Nat.add_assoc, h2, h3]

theorem pread_two {m : Mem} {a : Nat} {b0 b1 : Byte} (h0 : m a = some b0) (h1 : m (a + 1) = some b1) :
    ∃ t, pread 4 m a 4 = b0 :: b1 :: t := by
  simp [pread, h0, h1]

theorem pread_one {m : Mem} {a : Nat} {b0 : Byte} (h0 : m a = some b0) : ∃ t, pread 4 m a 4 = b0 :: t := by
  simp [pread, h0]

/-- The length of the first instruction of the two programs. -/
def firstLen : Isa → Nat
  | .x86 => 2
  | _ => 4

theorem holds_cons {m : Mem} {a : Nat} {b : Byte} {bs : List Byte} :
    Holds m a (b :: bs) ↔ m a = some b ∧ Holds m (a + 1) bs := by
  constructor
  · intro h
    refine ⟨h 0 (by simp), fun k hk => ?_⟩
    have := h (k + 1) (by simpa using hk)
    rw [show a + 1 + k = a + (k + 1) by omega, this]
    simp
  · rintro ⟨h0, h⟩ k hk
    cases k with
    | zero => simpa using h0
    | succ k =>
      have := h k (by simpa using hk)
      rw [show a + (k + 1) = a + 1 + k by omega, this]
      simp

theorem decode_syscall (isa : Isa) (m : Mem) (a : Nat) (h : Holds m a (syscallCode isa)) :
    decodeInsn isa (pread 4 m a 4) = some (.syscall, firstLen isa) := by
  cases isa <;> simp only [syscallCode, holds_cons, Nat.add_assoc, Nat.reduceAdd] at h
  · obtain ⟨t, ht⟩ := pread_two h.1 h.2.1
    rw [ht]; rfl
  all_goals rw [pread4 h.1 h.2.1 h.2.2.1 h.2.2.2.1]; decide

theorem decode_call (isa : Isa) (m : Mem) (a : Nat) (h : Holds m a (callCode isa)) :
    decodeInsn isa (pread 4 m a 4) = some (.call (callReg isa), firstLen isa) := by
  cases isa <;> simp only [callCode, holds_cons, Nat.add_assoc, Nat.reduceAdd] at h
  · obtain ⟨t, ht⟩ := pread_two h.1 h.2.1
    rw [ht]; rfl
  all_goals rw [pread4 h.1 h.2.1 h.2.2.1 h.2.2.2.1]; decide

theorem decode_brk (isa : Isa) (m : Mem) (a : Nat) (h : Holds m a (syscallCode isa) ∨ Holds m a (callCode isa)) :
    decodeInsn isa (pread 4 m (a + firstLen isa) 4) = some (.brk, match isa with | .x86 => 1 | _ => 4) := by
  cases isa <;> simp only [syscallCode, callCode, holds_cons, Nat.add_assoc, Nat.reduceAdd, firstLen] at h ⊢
  · have : m (a + 2) = some 0xcc := by rcases h with h | h <;> exact h.2.2.1
    obtain ⟨t, ht⟩ := pread_one this
    rw [ht]; rfl
  · have : m (a + 4) = some 0xa0 ∧ m (a + 5) = some 0 ∧ m (a + 6) = some 0x20 ∧ m (a + 7) = some 0xd4 := by
      rcases h with h | h <;> exact ⟨h.2.2.2.2.1, h.2.2.2.2.2.1, h.2.2.2.2.2.2.1, h.2.2.2.2.2.2.2.1⟩
    rw [pread4 this.1 this.2.1 this.2.2.1 this.2.2.2]; decide
  · have : m (a + 4) = some 0 ∧ m (a + 5) = some 0 ∧ m (a + 6) = some 0x2a ∧ m (a + 7) = some 0 := by
      rcases h with h | h <;> exact ⟨h.2.2.2.2.1, h.2.2.2.2.2.1, h.2.2.2.2.2.2.1, h.2.2.2.2.2.2.2.1⟩
    rw [pread4 this.1 this.2.1 this.2.2.1 this.2.2.2]; decide
  · have : m (a + 4) = some 0x73 ∧ m (a + 5) = some 0 ∧ m (a + 6) = some 0x10 ∧ m (a + 7) = some 0 := by
      rcases h with h | h <;> exact ⟨h.2.2.2.2.1, h.2.2.2.2.2.1, h.2.2.2.2.2.2.1, h.2.2.2.2.2.2.2.1⟩
    rw [pread4 this.1 this.2.1 this.2.2.1 this.2.2.2]; decide

/-- A remote call that succeeded. -/
theorem executeRemote_ok {R : Type} (e : RemoteEnv R) (base : Nat) (code : List Byte) (prepare : R → R)
    (m : Mem) (regs : R) (hw2 : code.length ≤ e.wlim2)
    (hdom : ∀ m', Holds m' base code → (e.func m' (prepare regs)).2.2 = true →
      ∀ x, InRange x base code.length → (e.func m' (prepare regs)).1 x ≠ none)
    (h : (executeRemote e base code prepare m regs).2.2.2 = true) :
    ∃ m', Holds m' base code ∧ (∀ x, ¬ InRange x base code.length → m' x = m x) ∧
      (e.func m' (prepare regs)).2.2 = true ∧
      (executeRemote e base code prepare m regs).2.1 = regs ∧
      (executeRemote e base code prepare m regs).2.2.1 = some (e.func m' (prepare regs)).2.1 ∧
      (∀ x, InRange x base code.length → (executeRemote e base code prepare m regs).1 x = m x) ∧
      (∀ x, ¬ InRange x base code.length →
        (executeRemote e base code prepare m regs).1 x = (e.func m' (prepare regs)).1 x) := by
  unfold executeRemote at *
  split at h
  · simp at h
  rename_i h1
  rw [if_neg h1]
  cases hr : memRead e.rlim m base code.length with
  | none => rw [hr] at h; simp at h
  | some orig =>
    obtain ⟨ol, oh⟩ := memRead_ok _ _ _ _ _ hr
    rw [hr] at h
    dsimp only at h ⊢
    split at h
    · simp at h
    split at h
    · simp at h
    split at h
    · simp at h
    split at h
    · simp at h
    split at h
    · simp at h
    rename_i h2 h3 h4 h5 h6
    rw [if_neg h2, if_neg h3, if_neg h4, if_neg h5, if_neg h6]
    have hh := (memWrite_ok e.wlim m base code (by simpa using h2)).1
    have hf : (e.func (memWrite e.wlim m base code).1 (prepare regs)).2.2 = true := by simpa using h4
    refine ⟨_, hh, memWrite_frame _ _ _ _, hf, rfl, rfl, ?_, ?_⟩
    · have hmap : Mapped (e.func (memWrite e.wlim m base code).1 (prepare regs)).1 base orig.length := by
        intro k hk
        exact hdom _ hh hf _ (by simp only [InRange]; omega)
      obtain ⟨hh2, -⟩ := memWrite_ok _ _ _ _ (memWrite_full (lim := e.wlim2) (by omega) hmap)
      intro x hx
      simp only [InRange] at hx
      have a1 := hh2 (x - base) (by omega)
      have a2 := oh (x - base) (by omega)
      rw [show base + (x - base) = x by omega] at a1 a2
      dsimp only
      rw [a1, a2]
    · intro x hx
      exact memWrite_frame _ _ _ _ _ (by rw [ol]; exact hx)

theorem prepare_nr (isa : Isa) (junk : Nat → BitVec 64) (base : Nat) (nr : BitVec 64) (a : SysArgs) (c : Cpu) :
    (prepareRegs isa base (syscallRegs isa junk nr a) c).g (sysNrReg isa) = nr := by
  cases isa <;> simp [prepareRegs, copiedRegs, sysNrReg, syscallRegs]

theorem prepare_args (isa : Isa) (junk : Nat → BitVec 64) (base : Nat) (nr : BitVec 64) (a : SysArgs) (c : Cpu) :
    sysArgs isa (prepareRegs isa base (syscallRegs isa junk nr a) c).g = a := by
  cases isa <;> simp [prepareRegs, copiedRegs, sysArgs, syscallRegs]

theorem step_syscall (isa : Isa) (w : CpuWorld) (m : Mem) (c : Cpu) (h : Holds m c.pc (syscallCode isa)) :
    ∃ c', cpuStep isa w (m, c) = some ((w.sys (c.g (sysNrReg isa)) (sysArgs isa c.g) m).1, c') ∧
      c'.pc = c.pc + firstLen isa ∧ c'.g (resultReg isa) = (w.sys (c.g (sysNrReg isa)) (sysArgs isa c.g) m).2 := by
  unfold cpuStep
  rw [decode_syscall isa m c.pc h]
  refine ⟨_, rfl, rfl, ?_⟩
  cases isa <;> simp [Cpu.set, resultReg, retReg]

theorem step_brk (isa : Isa) (w : CpuWorld) (m : Mem) (c : Cpu) (base : Nat) (hpc : c.pc = base + firstLen isa)
    (h : Holds m base (syscallCode isa) ∨ Holds m base (callCode isa)) : cpuStep isa w (m, c) = none := by
  unfold cpuStep
  dsimp only
  rw [hpc, decode_brk isa m base h]

/-- C65: a remote system call that reports success made exactly one system call in the target, with the number and the
arguments asked for, and its result is the kernel's.  The memory of the target is what the kernel made of it, with the
borrowed code as it was before, and the thread has its registers back.  For every architecture, every schedule of
signals other than `SIGSTOP` and `SIGTRAP`, and any system call that does not itself touch the borrowed code.  `m'` is
the memory with the borrowed code in it.  Missing: `SIGSTOP`, see `C65_violated_sigstop`. -/
theorem C65_syscall_partial (isa : Isa) (w : CpuWorld) (sched : List (Nat × Nat)) (e : RemoteEnv Cpu)
    (junk : Nat → BitVec 64) (base : Nat) (nr : BitVec 64) (a : SysArgs) (m : Mem) (c : Cpu) (res : BitVec 64)
    (hrun : e.func = remoteRun isa w sched) (hsched : ∀ x ∈ sched, x.2 ≠ 19 ∧ x.2 ≠ 5)
    (hsys : ∀ m' x, InRange x base (syscallCode isa).length → (w.sys nr a m').1 x = m' x)
    (hw2 : (syscallCode isa).length ≤ e.wlim2)
    (h : (syscallRemote isa e junk base nr a m c).2.2 = some res) :
    ∃ m', Holds m' base (syscallCode isa) ∧ (∀ x, ¬ InRange x base (syscallCode isa).length → m' x = m x) ∧
      res = (w.sys nr a m').2 ∧
      (∀ x, (syscallRemote isa e junk base nr a m c).1 x =
        if InRange x base (syscallCode isa).length then m x else (w.sys nr a m').1 x) ∧
      (syscallRemote isa e junk base nr a m c).2.1 = c := by
  have key : ∀ m', Holds m' base (syscallCode isa) → ∃ c',
      e.func m' (prepareRegs isa base (syscallRegs isa junk nr a) c) = ((w.sys nr a m').1, c', true) ∧
      c'.g (resultReg isa) = (w.sys nr a m').2 := by
    intro m' hm'
    obtain ⟨c', g1, g2, g3⟩ := step_syscall isa w m' (prepareRegs isa base (syscallRegs isa junk nr a) c) hm'
    rw [prepare_nr, prepare_args] at g1 g3
    refine ⟨c', ?_, g3⟩
    have hb : cpuStep isa w ((w.sys nr a m').1, c') = none := by
      refine step_brk isa w _ _ base g2 (Or.inl ?_)
      intro k hk
      rw [hsys m' _ ⟨by omega, by omega⟩]
      exact hm' k hk
    rw [hrun, remoteRun_stop, stopState_before isa w _ _ g1 hb sched hsched]
  unfold syscallRemote at h ⊢
  dsimp only at h ⊢
  split at h
  · rename_i hok
    have hdom : ∀ m', Holds m' base (syscallCode isa) →
        (e.func m' (prepareRegs isa base (syscallRegs isa junk nr a) c)).2.2 = true →
        ∀ x, InRange x base (syscallCode isa).length →
          (e.func m' (prepareRegs isa base (syscallRegs isa junk nr a) c)).1 x ≠ none := by
      intro m' hm' _ x hx
      obtain ⟨c', g1, -⟩ := key m' hm'
      rw [g1]
      dsimp only
      rw [hsys m' x hx]
      obtain ⟨h1, h2⟩ := hx
      have := hm' (x - base) (by omega)
      rw [show base + (x - base) = x by omega] at this
      rw [this]
      simp
    obtain ⟨m', f1, f2, f3, f4, f5, f6, f7⟩ := executeRemote_ok e base _ _ m c hw2 hdom hok
    obtain ⟨c', g1, g2⟩ := key m' f1
    rw [f5, Option.map_some, Option.some.injEq, g1] at h
    refine ⟨m', f1, f2, by rw [← h]; exact g2, fun x => ?_, f4⟩
    split
    · exact f6 x (by assumption)
    · rw [f7 x (by assumption), g1]
  · cases h

/-- C65, the other direction: when the register and memory accesses succeed, the call is made. -/
theorem C65_performed (isa : Isa) (w : CpuWorld) (sched : List (Nat × Nat)) (e : RemoteEnv Cpu)
    (junk : Nat → BitVec 64) (base : Nat) (nr : BitVec 64) (a : SysArgs) (m : Mem) (c : Cpu)
    (hrun : e.func = remoteRun isa w sched) (hsched : ∀ x ∈ sched, x.2 ≠ 19 ∧ x.2 ≠ 5)
    (hsys : ∀ m' x, InRange x base (syscallCode isa).length → (w.sys nr a m').1 x = m' x)
    (hmap : Mapped m base (syscallCode isa).length) (hr : (syscallCode isa).length ≤ e.rlim)
    (hw : (syscallCode isa).length ≤ e.wlim)
    (hregs : e.getRegs1 = true ∧ e.setRegs1 = true ∧ e.getRegs2 = true ∧ e.setRegs2 = true) :
    (syscallRemote isa e junk base nr a m c).2.2 ≠ none := by
  obtain ⟨r1, r2, r3, r4⟩ := hregs
  unfold syscallRemote
  dsimp only
  have hrd : ∃ orig, memRead e.rlim m base (syscallCode isa).length = some orig := by
    obtain ⟨o, ho, -⟩ := memRead_full hr hmap
    exact ⟨o, ho⟩
  obtain ⟨orig, hrd⟩ := hrd
  have hwr := memWrite_full (lim := e.wlim) hw hmap
  have hh := (memWrite_ok e.wlim m base _ hwr).1
  obtain ⟨c', g1, g2, g3⟩ := step_syscall isa w (memWrite e.wlim m base (syscallCode isa)).1
    (prepareRegs isa base (syscallRegs isa junk nr a) c) hh
  rw [prepare_nr, prepare_args] at g1 g3
  have hb : cpuStep isa w ((w.sys nr a (memWrite e.wlim m base (syscallCode isa)).1).1, c') = none := by
    refine step_brk isa w _ _ base g2 (Or.inl ?_)
    intro k hk
    rw [hsys _ _ ⟨by omega, by omega⟩]
    exact hh k hk
  unfold executeRemote
  simp only [r1, hrd, hwr, r2, r3, r4, hrun, remoteRun_stop, stopState_before isa w _ _ g1 hb sched hsched]
  simp

theorem isErrno_iff (res : BitVec 64) : isErrno res = true ↔ kernelError res := by
  unfold isErrno kernelError
  rw [decide_eq_true_iff, BitVec.toInt_eq_toNat_cond]
  have := res.isLt
  split <;> omega

theorem nrMmap_eq (isa : Isa) : nrMmap isa = mmapNr isa := by cases isa <;> rfl
theorem nrMprotect_eq (isa : Isa) : nrMprotect isa = mprotectNr isa := by cases isa <;> rfl
theorem nrMunmap_eq (isa : Isa) : nrMunmap isa = munmapNr isa := by cases isa <;> rfl

/-- C65: a failure reported by the kernel is a failure for the caller and nothing else is: `mmap` gives 0, the others
-1.  The system calls are those of the kernel with these names. -/
theorem C65_errors (isa : Isa) (e : RemoteEnv Cpu) (junk : Nat → BitVec 64) (base : Nat) (m : Mem) (c : Cpu)
    (res : BitVec 64) :
    (∀ a, (syscallRemote isa e junk base (mmapNr isa) a m c).2.2 = some res →
      (kernelError res → (mmapRemote isa e junk base a m c).2.2 = 0) ∧
      (¬ kernelError res → (mmapRemote isa e junk base a m c).2.2 = res)) ∧
    (∀ addr len prot, (syscallRemote isa e junk base (mprotectNr isa) ⟨addr, len, prot, 0, 0, 0⟩ m c).2.2 = some res →
      ((mprotectRemote isa e junk base addr len prot m c).2.2 = true ↔ ¬ kernelError res)) ∧
    (∀ addr len, (syscallRemote isa e junk base (munmapNr isa) ⟨addr, len, 0, 0, 0, 0⟩ m c).2.2 = some res →
      ((munmapRemote isa e junk base addr len m c).2.2 = true ↔ ¬ kernelError res)) := by
  rw [← nrMmap_eq, ← nrMprotect_eq, ← nrMunmap_eq]
  refine ⟨fun a h => ⟨fun hk => ?_, fun hk => ?_⟩, fun addr len prot h => ?_, fun addr len h => ?_⟩
  · unfold mmapRemote; dsimp only; rw [h]; dsimp only; rw [if_pos ((isErrno_iff res).mpr hk)]
  · unfold mmapRemote; dsimp only; rw [h]; dsimp only; rw [if_neg (fun x => hk ((isErrno_iff res).mp x))]
  · unfold mprotectRemote; dsimp only; rw [h]; dsimp only
    rw [← isErrno_iff, Bool.not_eq_true', Bool.not_eq_true]
  · unfold munmapRemote; dsimp only; rw [h]; dsimp only
    rw [← isErrno_iff, Bool.not_eq_true', Bool.not_eq_true]

/-- C65: when the remote call itself failed, the caller gets the failure. -/
theorem C65_failures (isa : Isa) (e : RemoteEnv Cpu) (junk : Nat → BitVec 64) (base : Nat) (m : Mem) (c : Cpu) :
    (∀ a, (syscallRemote isa e junk base (mmapNr isa) a m c).2.2 = none → (mmapRemote isa e junk base a m c).2.2 = 0) ∧
    (∀ addr len prot, (syscallRemote isa e junk base (mprotectNr isa) ⟨addr, len, prot, 0, 0, 0⟩ m c).2.2 = none →
      (mprotectRemote isa e junk base addr len prot m c).2.2 = false) ∧
    (∀ addr len, (syscallRemote isa e junk base (munmapNr isa) ⟨addr, len, 0, 0, 0, 0⟩ m c).2.2 = none →
      (munmapRemote isa e junk base addr len m c).2.2 = false) := by
  rw [← nrMmap_eq, ← nrMprotect_eq, ← nrMunmap_eq]
  refine ⟨fun a h => ?_, fun addr len prot h => ?_, fun addr len h => ?_⟩
  · unfold mmapRemote; dsimp only; rw [h]
  · unfold mprotectRemote; dsimp only; rw [h]
  · unfold munmapRemote; dsimp only; rw [h]

/-- Memory and a kernel for examples: one page at 0x1000; `mmap` succeeds at 0x7000, everything else fails with
`ENOMEM`. -/
def ExRemote.mem : Mem := fun x => if 0x1000 ≤ x ∧ x < 0x2000 then some 0x90 else none
def ExRemote.world : CpuWorld where
  sys nr a m := if nr = 9 ∧ a.a2 = 0x1000 then (mmapFixed m 0x7000 0x1000, 0x7000) else (m, -12)
  fn _ m c := (m, c.set 0 0x4242)
  flags := 0
def ExRemote.cpu : Cpu := ⟨fun r => BitVec.ofNat 64 (0x1800 + 8 * r), 0x1234⟩
def ExRemote.env (sched : List (Nat × Nat)) (w : CpuWorld) : RemoteEnv Cpu :=
  ⟨true, 9, 9, true, remoteRun .x86 w sched, true, true, 9⟩

/-- A remote `mmap` interrupted by two harmless signals; the mapping exists afterwards. -/
example :
    let r := mmapRemote .x86 (ExRemote.env [(0, 17), (1, 14)] ExRemote.world) (fun _ => 0) 0x1000
      ⟨0, 0x1000, 7, 0x22, -1, 0⟩ ExRemote.mem ExRemote.cpu
    r.2.2 = 0x7000 ∧ r.2.1.pc = 0x1234 ∧ r.1 0x7000 = some 0 ∧ r.1 0x1000 = some 0x90 := by
  decide +kernel

/-- C65 is false when a `SIGSTOP` reaches the thread before it has made the system call: the stop is taken for the end
of the call, no call is made, and `mmap` reports its own system call number, 9, as the address of the mapping (here the
kernel would have refused the mapping). -/
theorem C65_violated_sigstop :
    let w : CpuWorld := { ExRemote.world with sys := fun _ _ m => (m, -12) }
    (mmapRemote .x86 (ExRemote.env [(0, 19)] w) (fun _ => 0) 0x1000 ⟨0, 0x1000, 7, 0x22, -1, 0⟩
      ExRemote.mem ExRemote.cpu).2.2 = 9 := by
  decide +kernel

/-! ### C66 -/

theorem step_call (isa : Isa) (w : CpuWorld) (m : Mem) (c : Cpu) (h : Holds m c.pc (callCode isa)) :
    cpuStep isa w (m, c) =
      let i := enterCall isa (c.pc + firstLen isa) m c
      let f := w.fn (c.g (callReg isa)).toNat i.1 i.2
      some (f.1, { f.2 with pc := c.pc + firstLen isa }) := by
  unfold cpuStep
  rw [decode_call isa m c.pc h]

theorem prepare_call (isa : Isa) (junk : Nat → BitVec 64) (base : Nat) (addr : BitVec 64) (c : Cpu) :
    (prepareRegs isa base (callRegs isa junk addr) c).g (callReg isa) = addr := by
  cases isa <;> simp [prepareRegs, copiedRegs, callReg, callRegs]

/-- The place of the return address on the stack. -/
def OnStack (isa : Isa) (c : Cpu) (x : Nat) : Prop := isa = .x86 ∧ InRange x (c.g 4 - 8).toNat 8

theorem enterCall_frame (isa : Isa) (ret : Nat) (m : Mem) (c : Cpu) (x : Nat) (h : ¬ OnStack isa c x) :
    (enterCall isa ret m c).1 x = m x := by
  cases isa with
  | x86 =>
    unfold enterCall
    dsimp only
    apply memWrite_frame
    intro hx
    exact h ⟨rfl, by simpa [le64, le32] using hx⟩
  | aarch64 => rfl
  | loongarch => rfl
  | riscv => rfl

theorem prepare_sp (junk : Nat → BitVec 64) (base : Nat) (addr : BitVec 64) (c : Cpu) :
    (prepareRegs .x86 base (callRegs .x86 junk addr) c).g 4 = c.g 4 := by
  simp [prepareRegs, copiedRegs]

/-- C66: resolving an indirect function that reports success called the resolver once, and the address is the
resolver's result.  The memory is what the resolver made of it, with the borrowed code as before, and the thread has its
registers back.  `m'` is the memory at the entry of the resolver: it differs from the memory before only in the borrowed
code and, on x86-64, in the eight bytes below the stack pointer.  Missing: those eight bytes are not restored, see
`C66_violated_red_zone`. -/
theorem C66_resolver_partial (isa : Isa) (w : CpuWorld) (sched : List (Nat × Nat)) (e : RemoteEnv Cpu)
    (junk : Nat → BitVec 64) (base : Nat) (addr : BitVec 64) (m : Mem) (c : Cpu) (res : BitVec 64)
    (hrun : e.func = remoteRun isa w sched) (hsched : ∀ x ∈ sched, x.2 ≠ 19 ∧ x.2 ≠ 5)
    (hfn : ∀ m' c' x, InRange x base (callCode isa).length → (w.fn addr.toNat m' c').1 x = m' x)
    (hstack : ∀ x, InRange x base (callCode isa).length → ¬ OnStack isa c x)
    (hw2 : (callCode isa).length ≤ e.wlim2)
    (h : (resolveIfunc isa e junk base addr m c).2.2 = some res) :
    ∃ m' c', Holds m' base (callCode isa) ∧
      (∀ x, ¬ InRange x base (callCode isa).length → ¬ OnStack isa c x → m' x = m x) ∧
      res = (w.fn addr.toNat m' c').2.g (retReg isa) ∧
      (isa = .x86 ∨ isa = .aarch64 → ∀ r ∈ argRegs isa, c'.g r = 0) ∧
      (isa = .loongarch ∨ isa = .riscv → c'.g ((argRegs isa).headD 0) = addr) ∧
      (∀ x, (resolveIfunc isa e junk base addr m c).1 x =
        if InRange x base (callCode isa).length then m x else (w.fn addr.toNat m' c').1 x) ∧
      (resolveIfunc isa e junk base addr m c).2.1 = c := by
  generalize hp : prepareRegs isa base (callRegs isa junk addr) c = p
  have hppc : p.pc = base := by rw [← hp]; rfl
  have hpg : p.g (callReg isa) = addr := by rw [← hp]; exact prepare_call isa junk base addr c
  have hos : ∀ x, OnStack isa p x ↔ OnStack isa c x := by
    intro x
    unfold OnStack
    constructor
    · rintro ⟨rfl, hx⟩
      rw [← hp, prepare_sp] at hx
      exact ⟨rfl, hx⟩
    · rintro ⟨rfl, hx⟩
      rw [← hp, prepare_sp]
      exact ⟨rfl, hx⟩
  have hent : ∀ m', Holds m' base (callCode isa) → Holds (enterCall isa (base + firstLen isa) m' p).1 base (callCode isa) := by
    intro m' hm' k hk
    rw [enterCall_frame _ _ _ _ _ (fun hx => hstack (base + k) ⟨by omega, by omega⟩ ((hos _).mp hx))]
    exact hm' k hk
  have key : ∀ m', Holds m' base (callCode isa) →
      e.func m' p = ((w.fn addr.toNat (enterCall isa (base + firstLen isa) m' p).1 (enterCall isa (base + firstLen isa) m' p).2).1,
        { (w.fn addr.toNat (enterCall isa (base + firstLen isa) m' p).1 (enterCall isa (base + firstLen isa) m' p).2).2 with
          pc := base + firstLen isa }, true) := by
    intro m' hm'
    have g1 := step_call isa w m' p (by rw [hppc]; exact hm')
    dsimp only at g1
    rw [hppc, hpg] at g1
    have hb : cpuStep isa w ((w.fn addr.toNat (enterCall isa (base + firstLen isa) m' p).1 (enterCall isa (base + firstLen isa) m' p).2).1,
        { (w.fn addr.toNat (enterCall isa (base + firstLen isa) m' p).1 (enterCall isa (base + firstLen isa) m' p).2).2 with
          pc := base + firstLen isa }) = none := by
      refine step_brk isa w _ _ base rfl (Or.inr ?_)
      intro k hk
      rw [hfn _ _ _ ⟨by omega, by omega⟩]
      exact hent m' hm' k hk
    rw [hrun, remoteRun_stop, stopState_before isa w _ _ g1 hb sched hsched]
  unfold resolveIfunc at h ⊢
  dsimp only at h ⊢
  split at h
  · rename_i hok
    have hdom : ∀ m', Holds m' base (callCode isa) →
        (e.func m' (prepareRegs isa base (callRegs isa junk addr) c)).2.2 = true →
        ∀ x, InRange x base (callCode isa).length →
          (e.func m' (prepareRegs isa base (callRegs isa junk addr) c)).1 x ≠ none := by
      intro m' hm' _ x hx
      rw [hp, key m' hm']
      dsimp only
      rw [hfn _ _ x hx]
      obtain ⟨h1, h2⟩ := hx
      have := hent m' hm' (x - base) (by omega)
      rw [show base + (x - base) = x by omega] at this
      rw [this]
      simp
    obtain ⟨m', f1, f2, f3, f4, f5, f6, f7⟩ := executeRemote_ok e base _ _ m c hw2 hdom hok
    rw [hp, key m' f1] at f5 f7
    rw [f5, Option.map_some, Option.some.injEq] at h
    refine ⟨(enterCall isa (base + firstLen isa) m' p).1, (enterCall isa (base + firstLen isa) m' p).2, hent m' f1,
      fun x hx hs => ?_, ?_, ?_, ?_, fun x => ?_, f4⟩
    · rw [enterCall_frame _ _ _ _ _ (fun hx => hs ((hos _).mp hx))]
      exact f2 x hx
    · rw [← h]
      cases isa <;> rfl
    · rw [← hp]
      rintro (rfl | rfl) r hr <;> simp only [argRegs, List.mem_cons, List.not_mem_nil, or_false] at hr <;>
        rcases hr with rfl | rfl <;> simp [enterCall, prepareRegs, copiedRegs, callRegs, callReg, Cpu.set]
    · rw [← hp]
      rintro (rfl | rfl) <;> simp [enterCall, prepareRegs, copiedRegs, callRegs, callReg, Cpu.set, argRegs]
    · split
      · exact f6 x (by assumption)
      · rw [f7 x (by assumption)]
  · cases h

/-- The resolver's result arrives, on every architecture. -/
example : ∀ isa ∈ [Isa.x86, .aarch64, .loongarch, .riscv],
    let w : CpuWorld := { ExRemote.world with fn := fun a m c => (m, c.set (retReg isa) (BitVec.ofNat 64 (a + 1))) }
    let e : RemoteEnv Cpu := ⟨true, 9, 9, true, remoteRun isa w [(1, 17)], true, true, 9⟩
    (resolveIfunc isa e (fun _ => 7) 0x1000 0x5550 ExRemote.mem ExRemote.cpu).2.2 = some 0x5551 := by
  decide +kernel

/-- C66 is false of resolvers that look at their argument: the dynamic linker passes them the capabilities of the processor (here 5), the
tool passes 0 on AArch64 and the address of the resolver on LoongArch and RISC-V.  The address it gets can be another one than the process
uses. -/
theorem C66_violated_arguments : ∀ isa ∈ [Isa.aarch64, .loongarch, .riscv], ∃ (w : CpuWorld) (e : RemoteEnv Cpu) (m : Mem) (c : Cpu),
    e.func = remoteRun isa w [(1, 17)] ∧
    (∀ m' c', c'.g ((argRegs isa).headD 0) = 5 → (w.fn 0x5550 m' c').2.g (retReg isa) = 0x7000) ∧
    (resolveIfunc isa e (fun _ => 7) 0x1000 0x5550 m c).2.2 = some 0x8000 := by
  intro isa hi
  let w : CpuWorld := { ExRemote.world with
    fn := fun _ m c => (m, c.set (retReg isa) (if c.g ((argRegs isa).headD 0) = 5 then 0x7000 else 0x8000)) }
  refine ⟨w, ⟨true, 9, 9, true, remoteRun isa w [(1, 17)], true, true, 9⟩, ExRemote.mem, ExRemote.cpu, rfl, ?_, ?_⟩
  · intro m' c' h
    simp only [w, Cpu.set, h, if_true]
  · simp only [List.mem_cons, List.not_mem_nil, or_false] at hi
    rcases hi with rfl | rfl | rfl <;> decide +kernel

/-- C66 is false of the stack on x86-64: a resolver that changes nothing leaves the return address in the eight bytes
below the stack pointer.  A function without calls may keep its variables there (the red zone of the ABI), and the
thread was stopped anywhere. -/
theorem C66_violated_red_zone :
    let w : CpuWorld := ExRemote.world
    let r := resolveIfunc .x86 (ExRemote.env [] w) (fun _ => 0) 0x1000 0x5550 ExRemote.mem ExRemote.cpu
    (∀ a m c, (w.fn a m c).1 = m) ∧ r.2.2 = some 0x4242 ∧ (ExRemote.cpu.g 4).toNat = 0x1820 ∧
      ExRemote.mem 0x1818 = some 0x90 ∧ r.1 0x1818 = some 0x02 := by
  refine ⟨fun _ _ _ => rfl, ?_⟩
  decide +kernel

end Verif
