import Verif.Model.Daemon
/-
C90: the scripts of the storage surround the patching.  C91: the program started by the server.  C92: the storage the
server uses.
-/
namespace Verif

/-! ## C90 -/

/-- The script is there, was run, and did not end with status 0. -/
def Script.Fails (s : Script) : Prop :=
  s.access = .ok ∧ s.failed = false ∧ ((∃ c, s.status = .exited c ∧ c ≠ 0#8) ∨ (∃ n, s.status = .signalled n ∧ 0 < n))

/-- The script is not there, or was run and ended with status 0. -/
def Script.Passes (s : Script) : Prop :=
  s.access = .absent ∨ (s.access = .ok ∧ s.failed = false ∧ s.status = .exited 0#8)

theorem executeScript_fails {s : Script} (h : s.Fails) : executeScript true s < 0 := by
  obtain ⟨ha, _, ⟨c, hc, hne⟩ | ⟨n, hn, hpos⟩⟩ := h
  · have : c.toNat ≠ 0 := fun e => hne (BitVec.eq_of_toNat_eq (by simpa using e))
    simp only [executeScript, ha, hc, Bool.not_true, Bool.false_eq_true, if_false]
    omega
  · simp only [executeScript, ha, hn, Bool.not_true, Bool.false_eq_true, if_false]
    omega

theorem executeScript_passes {s : Script} (h : s.Passes) : executeScript true s = 0 := by
  rcases h with ha | ⟨ha, _, hs⟩
  · simp [executeScript, ha]
  · simp [executeScript, ha, hs]

/-- A target that is changed was patched by `apply`, after the script `before` of a storage directory had ended with
status 0 or was found not to be there.  Missing: the case of a script whose end could not be waited for
(`C90_violated_wait`). -/
theorem C90_before_script_decides_partial {σ : Type} (p : PatchSteps σ) (t : σ) (hd : p.dir = true)
    (hw : p.before.access = .ok → p.before.failed = false ∧ p.before.status ≠ .neither)
    (hs : ∀ n, p.before.status = .signalled n → 0 < n) :
    (.applied ∈ (processPatch p t).2.2 → p.before.Passes) ∧
    (.applied ∉ (processPatch p t).2.2 → (processPatch p t).1 = t) ∧
    (p.before.Fails → (processPatch p t).1 = t ∧ .after ∉ (processPatch p t).2.2 ∧
      (0 ≤ p.init → (∀ r ∈ p.prep, 0 ≤ r) → 0 < p.lookup → 0 ≤ p.attach → 0 ≤ p.coro → (processPatch p t).2.1 < 0)) := by
  unfold processPatch
  by_cases h0 : p.init < 0
  · simp only [if_pos h0]
    exact ⟨fun h => absurd h List.not_mem_nil, fun _ => trivial, fun _ => ⟨trivial, List.not_mem_nil, fun h => by omega⟩⟩
  simp only [if_neg h0]
  cases h1 : p.prep.find? (· < 0) with
  | some r =>
    have hr := List.find?_some h1
    have hm := List.mem_of_find?_eq_some h1
    simp only [decide_eq_true_eq] at hr
    refine ⟨fun h => ?_, fun _ => rfl, fun _ => ⟨rfl, by simp, fun _ h => ?_⟩⟩
    · simp at h
    · have := h r hm
      omega
  | none =>
    simp only []
    by_cases h2 : p.lookup ≤ 0
    · simp only [if_pos h2]
      exact ⟨fun h => by simp at h, fun _ => trivial, fun _ => ⟨trivial, by simp, fun _ _ h => by omega⟩⟩
    simp only [if_neg h2]
    by_cases h3 : p.attach < 0
    · simp only [if_pos h3]
      exact ⟨fun h => by simp at h, fun _ => trivial, fun _ => ⟨trivial, by simp, fun _ _ _ h => by omega⟩⟩
    simp only [if_neg h3]
    by_cases h4 : p.coro < 0
    · simp only [if_pos h4]
      exact ⟨fun h => by simp at h, fun _ => trivial, fun _ => ⟨trivial, by simp, fun _ _ _ _ h => by omega⟩⟩
    simp only [if_neg h4]
    by_cases h5 : executeScript p.dir p.before < 0
    · simp only [if_pos h5]
      refine ⟨fun h => ?_, fun _ => trivial, fun _ => ⟨trivial, ?_, fun _ _ _ _ _ => h5⟩⟩
      · simp only [scriptEv] at h
        split at h <;> simp at h
      · simp only [scriptEv]
        split <;> simp
    simp only [if_neg h5]
    refine ⟨fun _ => ?_, fun h => absurd (by simp) h, fun h => ?_⟩
    · rw [hd] at h5
      cases ha : p.before.access with
      | absent => exact Or.inl ha
      | other => simp [executeScript, ha] at h5
      | ok =>
        obtain ⟨hf, hn⟩ := hw ha
        cases hst : p.before.status with
        | exited c =>
          by_cases hc : c = 0#8
          · subst hc
            exact Or.inr ⟨ha, hf, hst⟩
          · exact absurd (executeScript_fails ⟨ha, hf, Or.inl ⟨c, hst, hc⟩⟩) h5
        | signalled n => exact absurd (executeScript_fails ⟨ha, hf, Or.inr ⟨n, hst, hs n hst⟩⟩) h5
        | neither => exact absurd hst hn
    · rw [hd] at h5
      exact absurd (executeScript_fails h) h5

/-- When every step works and the script `before` passes, the patches are applied between the two scripts, and the
result is that of the application whatever the script `after` does. -/
theorem C90_order {σ : Type} (p : PatchSteps σ) (t : σ) (hd : p.dir = true) (h0 : 0 ≤ p.init) (h1 : ∀ r ∈ p.prep, 0 ≤ r)
    (h2 : 0 < p.lookup) (h3 : 0 ≤ p.attach) (h4 : 0 ≤ p.coro) (hb : p.before.Passes) :
    (processPatch p t).1 = (p.apply t).1 ∧
    ((processPatch p t).2.1 < 0 ↔ (p.apply t).2 < 0) ∧
    (processPatch p t).2.2 = [.attached] ++ (if p.before.access = .ok then [.before] else []) ++ [.applied] ++
      (if p.after.access = .ok then [.after] else []) ++ [.freed] := by
  have hf : p.prep.find? (· < 0) = none := by
    rw [List.find?_eq_none]
    intro r hr
    have := h1 r hr
    simp only [decide_eq_true_eq]
    omega
  have he := executeScript_passes hb
  unfold processPatch
  rw [if_neg (by omega)]
  simp only [hf]
  rw [if_neg (by omega), if_neg (by omega), if_neg (by omega), hd, he, if_neg (by omega)]
  refine ⟨rfl, ?_, ?_⟩
  · simp only []
    split
    · simp [*]
    · constructor <;> intro h <;> omega
  · simp only [scriptEv, Bool.true_and, beq_iff_eq]
    rfl

/-- Violation: when the script cannot be waited for (fork fails, or a signal interrupts waitpid) the result is taken for
a success and the target is patched. -/
theorem C90_violated_wait : ∃ (p : PatchSteps Nat) (t : Nat), p.dir = true ∧ p.before.access = .ok ∧ p.before.failed = true ∧
    (processPatch p t).1 ≠ t ∧ (processPatch p t).2.1 = 0 :=
  ⟨⟨0, [], 1, 0, 0, true, ⟨.ok, true, .neither, 0⟩, ⟨.absent, false, .neither, 0⟩, fun t => (t + 1, 1)⟩, 5,
    rfl, rfl, rfl, by decide, by decide⟩

/-- A run with both scripts, of which the first one ends with status 0 and the second with status 3. -/
def exSteps (b : WaitStatus) : PatchSteps Nat :=
  ⟨0, [0, 1, 0], 2, 0, 0, true, ⟨.ok, false, b, 77⟩, ⟨.ok, false, .exited 3#8, 78⟩, fun t => (t + 1, 4)⟩

example : processPatch (exSteps (.exited 0#8)) 5 = (6, 0, [.attached, .before, .applied, .after, .freed]) := by decide
example : processPatch (exSteps (.exited 1#8)) 5 = (5, -1, [.attached, .before, .freed]) := by decide
example : processPatch (exSteps (.signalled 9)) 5 = (5, -9, [.attached, .before, .freed]) := by decide
example : (exSteps (.exited 1#8)).before.Fails := ⟨rfl, rfl, Or.inl ⟨1#8, rfl, by decide⟩⟩
example : (exSteps (.exited 0#8)).before.Passes := Or.inr ⟨rfl, rfl, rfl⟩

/-! ## C91 -/

/-- What can happen next: the number of a new process is not that of an existing one (a child of the server that is
waited for by this very command excepted), and a child keeps its number until it is waited for. -/
def SrvIn.Possible (s : Srv) : SrvIn → Prop
  | .appear p => 0 < p ∧ s.used p = false
  | .vanish p => s.mine p = false
  | .client _ (.child p _) => 0 < p ∧ (s.used p = false ∨ s.mine p = true)
  | _ => True

/-- A possible history. -/
def PossibleHist (s : Srv) : List SrvIn → Prop
  | [] => True
  | x :: h => x.Possible s ∧ PossibleHist (s.step x) h

/-- No client asks to kill the program that the server has running. -/
def NoKillOfChild (s : Srv) : List SrvIn → Prop
  | [] => True
  | x :: h => (∀ argv f, x = .client argv f → argv.headD [] = lit "kill" → scanPid (argv.getD 1 []) ≠ some s.child) ∧
      NoKillOfChild (s.step x) h

/-- What always holds. -/
structure SrvInv (s : Srv) : Prop where
  one : ∀ p, s.mine p = true → p = s.child
  used : ∀ p, s.mine p = true → s.used p = true
  clones : ∀ p ∈ s.clones, s.mine p = true
  last : s.ended = true → ∀ p, s.mine p = false

theorem killWait_inv {s : Srv} (h : SrvInv s) (pid : Int) (a : Bool) : SrvInv (s.killWait pid a) := by
  unfold Srv.killWait
  by_cases hm : s.mine pid = true
  · simp only [hm, if_true]
    refine ⟨fun p hp => ?_, fun p hp => ?_, fun p hp => ?_, fun he p => ?_⟩
    · by_cases e : p = pid
      · simp [e] at hp
      · simp only [if_neg e] at hp
        exact h.one p hp
    · by_cases e : p = pid
      · simp [e] at hp
      · simp only [if_neg e] at hp ⊢
        exact h.used p hp
    · simp only [List.mem_filter, decide_eq_true_eq] at hp
      simp only [if_neg hp.2]
      exact h.clones p hp.1
    · have := h.last he pid
      rw [hm] at this
      exact absurd this (by simp)
  · rw [Bool.not_eq_true] at hm
    simp only [hm, Bool.false_eq_true, if_false]
    exact ⟨h.one, h.used, h.clones, h.last⟩

theorem killWait_child {s : Srv} (h : SrvInv s) (a : Bool) : ∀ p, (s.killWait s.child a).mine p = false := by
  intro p
  unfold Srv.killWait
  by_cases hm : s.mine s.child = true
  · simp only [hm, if_true]
    by_cases e : p = s.child
    · simp [e]
    · simp only [if_neg e]
      cases hp : s.mine p with
      | false => rfl
      | true => exact absurd (h.one p hp) e
  · rw [Bool.not_eq_true] at hm
    simp only [hm, Bool.false_eq_true, if_false]
    cases hp : s.mine p with
    | false => rfl
    | true =>
      have := h.one p hp
      rw [this, hm] at hp
      exact absurd hp (by simp)

@[simp] theorem killWait_ended (s : Srv) (p : Int) (a : Bool) : (s.killWait p a).ended = s.ended := by
  unfold Srv.killWait; split <;> rfl
@[simp] theorem killWait_childpid (s : Srv) (p : Int) (a : Bool) : (s.killWait p a).child = s.child := by
  unfold Srv.killWait; split <;> rfl
@[simp] theorem killWait_dir (s : Srv) (p : Int) (a : Bool) : (s.killWait p a).dir = s.dir := by
  unfold Srv.killWait; split <;> rfl
theorem killWait_log (s : Srv) (p : Int) (a : Bool) : (s.killWait p a).log = s.log ++ [.signal p a (s.mine p)] := by
  unfold Srv.killWait; split <;> rfl

/-- A server with no child. -/
theorem noMine {s : Srv} (h : SrvInv s) (h0 : s.child = 0) (hpos : s.mine 0 = false) : ∀ p, s.mine p = false := by
  intro p
  cases hp : s.mine p with
  | false => rfl
  | true =>
    have := h.one p hp
    rw [this, h0, hpos] at hp
    exact absurd hp (by simp)

theorem killWait_mine {s : Srv} {p q : Int} {a : Bool} (h : (s.killWait p a).mine q = true) : s.mine q = true := by
  unfold Srv.killWait at h
  by_cases hm : s.mine p = true
  · simp only [hm, if_true] at h
    by_cases e : q = p
    · simp [e] at h
    · simpa [if_neg e] using h
  · rw [Bool.not_eq_true] at hm
    simpa [hm] using h

theorem inv_of_none {s : Srv} (h : ∀ p, s.mine p = false) (hc : s.clones = []) : SrvInv s :=
  ⟨fun p hp => by rw [h p] at hp; exact absurd hp (by simp), fun p hp => by rw [h p] at hp; exact absurd hp (by simp),
    fun p hp => by rw [hc] at hp; exact absurd hp List.not_mem_nil, fun _ => h⟩

theorem clones_nil {s : Srv} (h : SrvInv s) (hn : ∀ p, s.mine p = false) : s.clones = [] := by
  cases hc : s.clones with
  | nil => rfl
  | cons p ps =>
    have := h.clones p (by rw [hc]; simp)
    rw [hn p] at this
    exact absurd this (by simp)

/-- The state when fork is called. -/
def Srv.beforeFork (s : Srv) : Srv := if s.child ≠ 0 then { s.killWait s.child false with child := 0 } else s

theorem beforeFork_none {s : Srv} (h : SrvInv s) (h0 : s.mine 0 = false) :
    (∀ p, s.beforeFork.mine p = false) ∧ s.beforeFork.clones = [] ∧ s.beforeFork.child = 0 := by
  unfold Srv.beforeFork
  by_cases hc : s.child ≠ 0
  · simp only [if_pos hc]
    have hn := killWait_child h false
    exact ⟨hn, clones_nil (killWait_inv h s.child false) hn, trivial⟩
  · simp only [if_neg hc]
    have hc' : s.child = 0 := by omega
    have hn := noMine h hc' h0
    exact ⟨hn, clones_nil h hn, hc'⟩

theorem run_inv {s : Srv} (h : SrvInv s) (h0 : s.mine 0 = false) (he : s.ended = false) (f : ForkRes)
    (hp : ∀ p b, f = .child p b → 0 < p) : SrvInv (s.run f) ∧ (s.run f).mine 0 = false := by
  obtain ⟨hn, hcl, hc⟩ := beforeFork_none h h0
  have hend : s.beforeFork.ended = false := by
    unfold Srv.beforeFork
    split
    · simpa using he
    · exact he
  cases f with
  | failed => exact ⟨inv_of_none hn hcl, hn 0⟩
  | child p ok =>
    have hpp := hp p ok rfl
    have e : s.run (.child p ok) =
        { s.beforeFork with child := p, used := fun q => if q = p then true else s.beforeFork.used q,
                            mine := fun q => if q = p then true else s.beforeFork.mine q,
                            clones := if ok then s.beforeFork.clones else p :: s.beforeFork.clones } := rfl
    rw [e]
    refine ⟨⟨fun q hq => ?_, fun q hq => ?_, fun q hq => ?_, fun hh => ?_⟩, ?_⟩
    · by_cases eq : q = p
      · exact eq
      · simp only [if_neg eq, hn q] at hq
        exact absurd hq (by simp)
    · by_cases eq : q = p
      · simp [eq]
      · simp only [if_neg eq, hn q] at hq
        exact absurd hq (by simp)
    · rw [hcl] at hq
      cases ok with
      | true => exact absurd hq (by simp)
      | false =>
        simp only [Bool.false_eq_true, if_false, List.mem_singleton] at hq
        simp [hq]
    · simp only [] at hh
      rw [hend] at hh
      exact absurd hh (by simp)
    · have : (0 : Int) ≠ p := by omega
      simp only [if_neg this]
      exact hn 0

theorem finish_inv {s : Srv} (h : SrvInv s) (h0 : s.mine 0 = false) : SrvInv s.finish ∧ s.finish.mine 0 = false := by
  unfold Srv.finish
  by_cases hc : s.child ≠ 0
  · simp only [if_pos hc]
    have hn := killWait_child h false
    have hcl := clones_nil (killWait_inv h s.child false) hn
    exact ⟨inv_of_none hn hcl, hn 0⟩
  · simp only [if_neg hc]
    have hn := noMine h (by omega) h0
    have hcl := clones_nil h hn
    exact ⟨inv_of_none hn hcl, hn 0⟩

theorem client_inv {s : Srv} (h : SrvInv s) (h0 : s.mine 0 = false) (he : s.ended = false) (argv : List (List Byte))
    (f : ForkRes) (hp : ∀ p b, f = .child p b → 0 < p) : SrvInv (s.client argv f) ∧ (s.client argv f).mine 0 = false := by
  unfold Srv.client
  cases srvDispatch argv with
  | started p b => cases p <;> exact ⟨⟨h.one, h.used, h.clones, h.last⟩, h0⟩
  | update => exact ⟨⟨h.one, h.used, h.clones, h.last⟩, h0⟩
  | storage d => exact ⟨⟨h.one, h.used, h.clones, h.last⟩, h0⟩
  | stop => exact finish_inv h h0
  | run => exact run_inv h h0 he f hp
  | kill p =>
    cases p with
    | none => exact ⟨h, h0⟩
    | some p =>
      refine ⟨killWait_inv h p true, ?_⟩
      cases hz : (s.killWait p true).mine 0 with
      | false => rfl
      | true =>
        have := killWait_mine hz
        rw [h0] at this
        exact absurd this (by simp)
  | command a => exact ⟨⟨h.one, h.used, h.clones, h.last⟩, h0⟩

theorem step_inv {s : Srv} (h : SrvInv s) (h0 : s.mine 0 = false) (x : SrvIn) (hx : x.Possible s) :
    SrvInv (s.step x) ∧ (s.step x).mine 0 = false := by
  cases x with
  | appear p =>
    refine ⟨⟨h.one, fun q hq => ?_, h.clones, h.last⟩, h0⟩
    simp only [Srv.step]
    split
    · rfl
    · exact h.used q hq
  | vanish p =>
    refine ⟨⟨h.one, fun q hq => ?_, h.clones, h.last⟩, h0⟩
    simp only [Srv.step]
    split
    · next e =>
      simp only [SrvIn.Possible] at hx
      rw [e] at hq
      simp only [Srv.step] at hq
      rw [hx] at hq
      exact absurd hq (by simp)
    · exact h.used q hq
  | client argv f =>
    simp only [Srv.step]
    cases he : s.ended with
    | true => exact ⟨h, h0⟩
    | false =>
      refine client_inv h h0 he argv f ?_
      intro p b e
      subst e
      exact hx.1
  | term =>
    simp only [Srv.step]
    cases he : s.ended with
    | true => exact ⟨h, h0⟩
    | false => exact finish_inv h h0

theorem steps_inv : ∀ (hist : List SrvIn) (s : Srv), SrvInv s → s.mine 0 = false → PossibleHist s hist →
    SrvInv (s.steps hist) := by
  intro hist
  induction hist with
  | nil => exact fun s h _ _ => h
  | cons x hist ih =>
    intro s h h0 hp
    obtain ⟨a, b⟩ := step_inv h h0 x hp.1
    exact ih (s.step x) a b hp.2

theorem start_inv (d : List Byte) (used : Int → Bool) : SrvInv (Srv.start d used) :=
  inv_of_none (fun _ => rfl) rfl

/-- After every history the server has at most one program it started and has not waited for; a server that has ended
has none. -/
theorem C91_one_program (d : List Byte) (used : Int → Bool) (hist : List SrvIn)
    (hp : PossibleHist (Srv.start d used) hist) :
    (∀ p q, ((Srv.start d used).steps hist).mine p = true → ((Srv.start d used).steps hist).mine q = true → p = q) ∧
    (((Srv.start d used).steps hist).ended = true → ∀ p, ((Srv.start d used).steps hist).mine p = false) := by
  have h := steps_inv hist _ (start_inv d used) rfl hp
  exact ⟨fun p q hp hq => (h.one p hp).trans (h.one q hq).symm, h.last⟩

/-- What holds as long as no client kills the program. -/
structure SrvOwn (s : Srv) : Prop where
  child : s.ended = false → s.child ≠ 0 → s.mine s.child = true
  log : ∀ p m, .signal p false m ∈ s.log → m = true

theorem run_own {s : Srv} (h : SrvOwn s) (he : s.ended = false) (f : ForkRes) : SrvOwn (s.run f) := by
  have hlog : ∀ p m, .signal p false m ∈ s.beforeFork.log → m = true := by
    intro p m hm
    unfold Srv.beforeFork at hm
    by_cases hc : s.child ≠ 0
    · simp only [if_pos hc, killWait_log, List.mem_append, List.mem_singleton, SrvAct.signal.injEq] at hm
      rcases hm with hm | ⟨_, _, rfl⟩
      · exact h.log p m hm
      · exact h.child he hc
    · simp only [if_neg hc] at hm
      exact h.log p m hm
  have hc0 : s.beforeFork.child = 0 := by
    unfold Srv.beforeFork
    by_cases hc : s.child ≠ 0
    · simp only [if_pos hc]
    · simp only [if_neg hc]; omega
  cases f with
  | failed => exact ⟨fun _ hn => absurd hc0 hn, hlog⟩
  | child p ok =>
    refine ⟨fun _ _ => ?_, hlog⟩
    simp [Srv.run]

theorem finish_own {s : Srv} (h : SrvOwn s) (he : s.ended = false) : SrvOwn s.finish := by
  refine ⟨fun hh => absurd hh (by simp [Srv.finish]), fun p m hm => ?_⟩
  unfold Srv.finish at hm
  by_cases hc : s.child ≠ 0
  · simp only [if_pos hc, killWait_log, List.mem_append, List.mem_singleton, SrvAct.signal.injEq] at hm
    rcases hm with hm | ⟨_, _, rfl⟩
    · exact h.log p m hm
    · exact h.child he hc
  · simp only [if_neg hc] at hm
    exact h.log p m hm

theorem dispatch_kill {argv : List (List Byte)} {p : Option Int} (h : srvDispatch argv = .kill p) :
    argv.headD [] = lit "kill" ∧ scanPid (argv.getD 1 []) = p := by
  unfold srvDispatch at h
  simp only [] at h
  repeat' split at h
  all_goals simp_all

theorem step_own {s : Srv} (h : SrvOwn s) (x : SrvIn)
    (hk : ∀ argv f, x = .client argv f → argv.headD [] = lit "kill" → scanPid (argv.getD 1 []) ≠ some s.child) :
    SrvOwn (s.step x) := by
  cases x with
  | appear p => exact ⟨h.child, h.log⟩
  | vanish p => exact ⟨h.child, h.log⟩
  | term =>
    simp only [Srv.step]
    cases he : s.ended with
    | true => exact h
    | false => exact finish_own h he
  | client argv f =>
    simp only [Srv.step]
    cases he : s.ended with
    | true => exact h
    | false =>
      simp only [Bool.false_eq_true, if_false]
      have hadd : ∀ a, (∀ p m, a ≠ SrvAct.signal p false m) → SrvOwn { s with log := s.log ++ [a] } := by
        intro a ha
        refine ⟨h.child, fun p m hm => ?_⟩
        simp only [List.mem_append, List.mem_singleton] at hm
        rcases hm with hm | hm
        · exact h.log p m hm
        · exact absurd hm.symm (ha p m)
      unfold Srv.client
      cases hd : srvDispatch argv with
      | started p b =>
        cases p with
        | none => exact h
        | some p => exact hadd _ (fun _ _ => by simp)
      | update => exact hadd _ (fun _ _ => by simp)
      | storage d => exact ⟨h.child, h.log⟩
      | stop => exact finish_own h he
      | run => exact run_own h he f
      | command a => exact hadd _ (fun _ _ => by simp)
      | kill p =>
        cases p with
        | none => exact h
        | some p =>
          obtain ⟨h1, h2⟩ := dispatch_kill hd
          have hne : p ≠ s.child := by
            intro e
            exact hk argv f rfl h1 (by rw [h2, e])
          refine ⟨fun _ hc => ?_, fun q m hm => ?_⟩
          · simp only [killWait_childpid] at hc ⊢
            have := h.child he hc
            unfold Srv.killWait
            split
            · simp only [if_neg (Ne.symm hne)]
              exact this
            · exact this
          · simp only [killWait_log, List.mem_append, List.mem_singleton, SrvAct.signal.injEq] at hm
            rcases hm with hm | ⟨_, hm, _⟩
            · exact h.log q m hm
            · exact absurd hm (by simp)

/-- The signals that the server sends on its own account (to start another program, or at its end) go to a program that
it started and has not waited for.  Missing: histories in which a client names this program to the command `kill`
(`C91_violated_stale_pid`). -/
theorem C91_own_signals_partial (d : List Byte) (used : Int → Bool) (hist : List SrvIn)
    (hk : NoKillOfChild (Srv.start d used) hist) (p : Int) (m : Bool)
    (h : .signal p false m ∈ ((Srv.start d used).steps hist).log) : m = true := by
  have go : ∀ (hist : List SrvIn) (s : Srv), SrvOwn s → NoKillOfChild s hist → SrvOwn (s.steps hist) := by
    intro hist
    induction hist with
    | nil => exact fun s h _ => h
    | cons x hist ih => exact fun s h hk => ih (s.step x) (step_own h x hk.1) hk.2
  exact (go hist _ ⟨fun _ h => absurd rfl h, fun _ _ h => absurd h List.not_mem_nil⟩ hk).log p m h

/-- A program is started, replaced by another one, and the server is stopped. -/
def exHist : List SrvIn :=
  [.client [lit "run", lit "sleep 100"] (.child 7 true), .appear 8, .client [lit "run", lit "cat"] (.child 9 true),
   .vanish 8, .client [lit "kill", lit "55"] .failed, .client [lit "stop"] .failed]

theorem exHist_log : ((Srv.start [] (fun _ => false)).steps exHist).log =
    [.signal 7 false true, .signal 55 true false, .signal 9 false true] := by decide +kernel

example : PossibleHist (Srv.start [] (fun _ => false)) exHist :=
  ⟨⟨by decide, Or.inl rfl⟩, ⟨by decide, by decide +kernel⟩, ⟨by decide, Or.inl (by decide +kernel)⟩, by
    show _ = false; decide +kernel, trivial, trivial, trivial⟩

/-- Violation: after a client has killed the program by its number the server keeps the number, and signals whatever
process has it later. -/
theorem C91_violated_stale_pid : ∃ hist : List SrvIn, PossibleHist (Srv.start [] (fun _ => false)) hist ∧
    SrvAct.signal 7 false false ∈ ((Srv.start [] (fun _ => false)).steps hist).log := by
  refine ⟨[.client [lit "run", lit "sleep 100"] (.child 7 true), .client [lit "kill", lit "7"] .failed, .appear 7,
    .client [lit "stop"] .failed], ⟨⟨by decide, Or.inl rfl⟩, trivial, ⟨by decide, by decide +kernel⟩, trivial, trivial⟩,
    by decide +kernel⟩

/-- Violation: when the shell cannot be executed the child goes on as a second server on the same socket. -/
theorem C91_violated_exec : ∃ hist : List SrvIn, PossibleHist (Srv.start [] (fun _ => false)) hist ∧
    ((Srv.start [] (fun _ => false)).steps hist).clones = [7] ∧ ((Srv.start [] (fun _ => false)).steps hist).ended = false := by
  refine ⟨[.client [lit "run", lit "sleep 100"] (.child 7 false)], ⟨⟨by decide, Or.inl rfl⟩, trivial⟩, by decide +kernel,
    by decide +kernel⟩

/-! ## C92 -/

/-- The storage named last, `d` when none was named. -/
def lastStorage (d : List Byte) : List SrvIn → List Byte
  | [] => d
  | .client argv _ :: h => lastStorage (if argv.headD [] = lit "storage" then argv.getD 1 [] else d) h
  | _ :: h => lastStorage d h

/-- The names of storages fit the buffer and are C strings. -/
def StoragesFit (h : List SrvIn) : Prop :=
  ∀ argv f, .client argv f ∈ h → argv.headD [] = lit "storage" → (argv.getD 1 []).length < 4096 ∧ 0#8 ∉ argv.getD 1 []

/-- The buffer holds the string. -/
structure HoldsDir (b d : List Byte) : Prop where
  len : b.length = 4096
  str : cstr b = d
  last : b[4095]? = some 0#8

theorem cstr_upto (a rest : List Byte) (h : 0#8 ∉ a) : cstr (a ++ 0#8 :: rest) = a := by
  induction a with
  | nil => simp [cstr]
  | cons x a ih =>
    simp only [List.mem_cons, not_or] at h
    simp only [cstr, List.cons_append] at ih ⊢
    rw [List.takeWhile_cons_of_pos (by simpa using Ne.symm h.1), ih h.2]

theorem cstr_id (a : List Byte) (h : 0#8 ∉ a) : cstr a = a := by
  induction a with
  | nil => rfl
  | cons x a ih =>
    simp only [List.mem_cons, not_or] at h
    simp only [cstr] at ih ⊢
    rw [List.takeWhile_cons_of_pos (by simpa using Ne.symm h.1), ih h.2]

theorem strncpy_holds {b d s : List Byte} (h : HoldsDir b d) (hl : s.length < 4096) (h0 : 0#8 ∉ s) :
    HoldsDir (strncpy b s (pathMax - 1)) s := by
  have hd : b.drop 4095 = [0#8] := by
    have hb := h.len
    have hlast := h.last
    rw [List.getElem?_eq_getElem (by omega)] at hlast
    rw [List.drop_eq_getElem_cons (by omega), Option.some.inj hlast, List.drop_eq_nil_iff.2 (by omega)]
  have e : strncpy b s (pathMax - 1) = s ++ List.replicate (4095 - s.length) 0#8 ++ [0#8] := by
    have hp : pathMax - 1 = 4095 := rfl
    simp only [strncpy, cstr_id s h0, hp, List.take_of_length_le (by omega : s.length ≤ 4095), hd]
  rw [e]
  refine ⟨by simp; omega, ?_, ?_⟩
  · rw [List.append_assoc]
    cases hk : 4095 - s.length with
    | zero => simpa using cstr_upto s [] h0
    | succ k =>
      rw [List.replicate_succ, List.cons_append]
      exact cstr_upto s _ h0
  · rw [List.getElem?_append_right (by simp; omega)]
    simp only [List.length_append, List.length_replicate]
    have : 4095 - (s.length + (4095 - s.length)) = 0 := by omega
    rw [this]
    rfl

theorem start_holds (d : List Byte) (used : Int → Bool) (hl : d.length < 4096) (h0 : 0#8 ∉ d) :
    HoldsDir (Srv.start d used).dir d := by
  have hp : pathMax = 4096 := rfl
  refine ⟨by simp [Srv.start, hp]; omega, ?_, ?_⟩
  · simp only [Srv.start, hp]
    cases hk : 4096 - d.length with
    | zero => omega
    | succ k =>
      rw [List.replicate_succ]
      exact cstr_upto d _ h0
  · simp only [Srv.start, hp]
    rw [List.getElem?_append_right (by omega), List.getElem?_replicate, if_pos (by omega)]

theorem dispatch_storage (argv : List (List Byte)) :
    (argv.headD [] = lit "storage" ∧ srvDispatch argv = .storage (argv.getD 1 [])) ∨
    (argv.headD [] ≠ lit "storage" ∧ ∀ d, srvDispatch argv ≠ .storage d) := by
  have n1 : lit "storage" ≠ lit "execve" := by decide +kernel
  have n2 : lit "storage" ≠ lit "startup" := by decide +kernel
  have n3 : lit "storage" ≠ lit "update" := by decide +kernel
  by_cases h : argv.headD [] = lit "storage"
  · refine Or.inl ⟨h, ?_⟩
    unfold srvDispatch
    simp only [h, if_neg n1, if_neg n2, if_neg n3, if_true]
  · refine Or.inr ⟨h, fun d => ?_⟩
    unfold srvDispatch
    simp only [if_neg h]
    repeat' split
    all_goals simp

theorem finish_dir (s : Srv) : s.finish.dir = s.dir := by
  unfold Srv.finish
  by_cases hc : s.child ≠ 0 <;> simp [hc]

theorem run_dir (s : Srv) (f : ForkRes) : (s.run f).dir = s.dir := by
  unfold Srv.run
  by_cases hc : s.child ≠ 0 <;> cases f <;> simp [hc]

theorem client_dir {s : Srv} {argv : List (List Byte)} {f : ForkRes} (h : ∀ d, srvDispatch argv ≠ .storage d) :
    (s.client argv f).dir = s.dir := by
  unfold Srv.client
  cases hd : srvDispatch argv with
  | started p b => cases p <;> rfl
  | update => rfl
  | storage d => exact absurd hd (h d)
  | stop => exact finish_dir s
  | run => exact run_dir s f
  | kill p =>
    cases p with
    | none => rfl
    | some p => exact killWait_dir s p true
  | command a => rfl

theorem steps_ended : ∀ (h : List SrvIn) (s : Srv), s.ended = true → (s.steps h).ended = true := by
  intro h
  induction h with
  | nil => exact fun _ h => h
  | cons x h ih =>
    intro s he
    refine ih _ ?_
    cases x <;> simp [Srv.step, he]

theorem steps_holds : ∀ (h : List SrvIn) (s : Srv) (d : List Byte), HoldsDir s.dir d → StoragesFit h →
    (s.steps h).ended = false → HoldsDir (s.steps h).dir (lastStorage d h) := by
  intro h
  induction h with
  | nil => exact fun s d hh _ _ => hh
  | cons x h ih =>
    intro s d hh hf he
    have hs : s.ended = false := by
      cases hs : s.ended with
      | false => rfl
      | true =>
        have := steps_ended (x :: h) s hs
        rw [he] at this
        exact absurd this (by simp)
    have hf' : StoragesFit h := fun argv f hm => hf argv f (List.mem_cons_of_mem _ hm)
    have hrec : ∀ d', HoldsDir (s.step x).dir d' → HoldsDir (s.steps (x :: h)).dir (lastStorage d' h) :=
      fun d' h' => ih (s.step x) d' h' hf' he
    cases x with
    | appear p => exact hrec d hh
    | vanish p => exact hrec d hh
    | term =>
      refine hrec d ?_
      simp only [Srv.step, hs, Bool.false_eq_true, if_false, finish_dir]
      exact hh
    | client argv f =>
      refine hrec _ ?_
      simp only [Srv.step, hs, Bool.false_eq_true, if_false]
      rcases dispatch_storage argv with ⟨h1, h2⟩ | ⟨h1, h2⟩
      · rw [if_pos h1]
        obtain ⟨hl, h0⟩ := hf argv f (by simp) h1
        unfold Srv.client
        rw [h2]
        exact strncpy_holds hh hl h0
      · rw [if_neg h1, client_dir h2]
        exact hh

/-- After every history, `update` patches all processes from the storage named last, and `startup` and `execve` patch the
named process from it. -/
theorem C92_storage_named_last (d : List Byte) (used : Int → Bool) (h : List SrvIn) (hl : d.length < 4096) (h0 : 0#8 ∉ d)
    (hf : StoragesFit h) (he : ((Srv.start d used).steps h).ended = false) (f : ForkRes) :
    ((Srv.start d used).steps (h ++ [.client [lit "update"] f])).log =
      ((Srv.start d used).steps h).log ++ [.patch (lastStorage d h) none false] ∧
    (∀ arg pid, scanPid arg = some pid →
      ((Srv.start d used).steps (h ++ [.client [lit "startup", arg] f])).log =
        ((Srv.start d used).steps h).log ++ [.patch (lastStorage d h) (some pid) false] ∧
      ((Srv.start d used).steps (h ++ [.client [lit "execve", arg] f])).log =
        ((Srv.start d used).steps h).log ++ [.patch (lastStorage d h) (some pid) true]) := by
  have hd := (steps_holds h _ d (start_holds d used hl h0) hf he).str
  have n1 : lit "update" ≠ lit "execve" := by decide +kernel
  have n2 : lit "update" ≠ lit "startup" := by decide +kernel
  have n3 : lit "startup" ≠ lit "execve" := by decide +kernel
  have hs : ∀ x, (Srv.start d used).steps (h ++ [x]) = ((Srv.start d used).steps h).step x := by
    intro x
    simp [Srv.steps, List.foldl_append]
  have e1 : srvDispatch [lit "update"] = .update := by
    simp only [srvDispatch, List.headD_cons, if_neg n1, if_neg n2, if_true]
  refine ⟨?_, fun arg pid hp => ⟨?_, ?_⟩⟩
  · simp only [hs, Srv.step, he, Bool.false_eq_true, if_false, Srv.client, e1, hd]
  · have e2 : srvDispatch [lit "startup", arg] = .started (some pid) false := by
      simp only [srvDispatch, List.headD_cons, if_neg n3, if_true]
      rw [← hp]; rfl
    simp only [hs, Srv.step, he, Bool.false_eq_true, if_false, Srv.client, e2, hd]
  · have e2 : srvDispatch [lit "execve", arg] = .started (some pid) true := by
      simp only [srvDispatch, List.headD_cons, if_true]
      rw [← hp]; rfl
    simp only [hs, Srv.step, he, Bool.false_eq_true, if_false, Srv.client, e2, hd]

/-- A storage is named, then a longer one, then a shorter one. -/
def exStore : List SrvIn :=
  [.client [lit "storage", lit "/a"] .failed, .client [lit "storage", lit "/var/long/name"] .failed, .appear 3,
   .client [lit "storage", lit "/b"] .failed]

example : lastStorage (lit "/var/lib/libcare") exStore = lit "/b" := by decide +kernel

example : StoragesFit exStore := by
  intro argv f hm hs
  simp only [exStore, List.mem_cons, List.not_mem_nil, or_false, SrvIn.client.injEq, reduceCtorEq, false_or] at hm
  rcases hm with ⟨rfl, _⟩ | ⟨rfl, _⟩ | ⟨rfl, _⟩ <;> decide +kernel

example : scanPid (lit "1234") = some 1234 ∧ scanPid (lit " -5x") = some (-5) ∧ scanPid (lit "x5") = none := by decide +kernel

end Verif
