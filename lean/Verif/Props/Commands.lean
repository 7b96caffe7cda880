import Verif.Model.Commands
import Mathlib.Tactic.Tauto
import Mathlib.Data.List.TakeWhile
/-
C55: commands over all processes.  C58: wrong invocations.
-/
namespace Verif

/-- Specification: a name in /proc made of decimal digits only is a process, with this number. -/
def pidOfName (name : List Byte) : Option Nat :=
  if name ≠ [] ∧ name.all (fun c => 48 ≤ c.toNat ∧ c.toNat ≤ 57) then
    some (name.foldl (fun n c => n * 10 + (c.toNat - 48)) 0)
  else none

/-- Specification: the processes a command over all processes is for: all but init (1), the command itself, and those
without an executable (kernel threads). -/
def eligible (self : Int) (exe : Int → Bool) (name : List Byte) : Option Int :=
  match pidOfName name with
  | some n => if n ≠ 0 ∧ n ≠ 1 ∧ (n : Int) ≠ self ∧ exe n then some (n : Int) else none
  | none => none

/-- Specification: what names /proc has: not empty, they do not start with white space or a sign, and numbers are below
2^31 (pid_t). -/
def ProcName (name : List Byte) : Prop :=
  name ≠ [] ∧ (∀ c, name.head? = some c → isSpace c = false ∧ c ≠ 43#8 ∧ c ≠ 45#8) ∧
    ∀ n, pidOfName name = some n → n < 2 ^ 31

theorem isDigit_iff (c : Byte) : isDigit c = decide (48 ≤ c.toNat ∧ c.toNat ≤ 57) := by
  unfold isDigit
  simp only [BitVec.le_def, ← Bool.decide_and]
  rfl

theorem procPid_spec (self : Int) {name : List Byte} (h : ProcName name) :
    procPid self name = match pidOfName name with
      | some n => if n ≠ 0 ∧ n ≠ 1 ∧ (n : Int) ≠ self then some (n : Int) else none
      | none => none := by
  obtain ⟨hne, hhead, hlt⟩ := h
  cases name with
  | nil => exact absurd rfl hne
  | cons c cs =>
    obtain ⟨hsp, hp, hm⟩ := hhead c rfl
    have hdw : (c :: cs).dropWhile isSpace = c :: cs := by rw [List.dropWhile_cons_of_neg (by simp [hsp])]
    have hst : strtoul10 (c :: cs) =
        let ds := (c :: cs).takeWhile isDigit
        if ds = [] then (0, c :: cs)
        else if digitsVal ds ≥ 2 ^ 64 then (BitVec.allOnes 64, (c :: cs).dropWhile isDigit)
        else (BitVec.ofNat 64 (digitsVal ds), (c :: cs).dropWhile isDigit) := by
      unfold strtoul10
      simp [hdw, hp, hm]
    have hall : ((c :: cs).all fun c => decide (48 ≤ c.toNat ∧ c.toNat ≤ 57)) = (c :: cs).all isDigit := by
      congr 1
      funext x
      rw [isDigit_iff]
    unfold procPid
    by_cases hdig : (c :: cs).all isDigit = true
    · have hpid : pidOfName (c :: cs) = some (digitsVal (c :: cs)) := by
        unfold pidOfName
        rw [if_pos ⟨by simp, by rw [hall]; exact hdig⟩]
        rfl
      have hb := hlt _ hpid
      rw [hpid]
      have hall' := List.all_eq_true.mp hdig
      have htw : (c :: cs).takeWhile isDigit = c :: cs := by
        rw [List.takeWhile_eq_self_iff]; exact hall'
      have hdw2 : (c :: cs).dropWhile isDigit = [] := by
        rw [List.dropWhile_eq_nil_iff]; exact hall'
      rw [hst]
      simp only [htw, hdw2]
      rw [if_neg (by simp : ¬ (c :: cs = [])), if_neg (by omega : ¬ (digitsVal (c :: cs) ≥ 2 ^ 64))]
      have hdot : ¬ ((c :: cs).head? = some 46#8) := by
        simp only [List.head?_cons, Option.some.injEq]
        rintro rfl
        have := hall' 46#8 (by simp)
        revert this
        decide
      rw [if_neg hdot]
      have hv : toInt32 (BitVec.ofNat 64 (digitsVal (c :: cs))) = (digitsVal (c :: cs) : Int) := by
        unfold toInt32
        generalize digitsVal (c :: cs) = v at hb
        rw [BitVec.toInt_eq_toNat_of_lt]
        · simp only [BitVec.toNat_setWidth, BitVec.toNat_ofNat]
          omega
        · simp only [BitVec.toNat_setWidth, BitVec.toNat_ofNat]
          omega
      simp only [hv]
      generalize digitsVal (c :: cs) = v
      by_cases h0 : v = 0
      · simp [h0]
      by_cases h1 : v = 1
      · simp [h1]
      by_cases h2 : (v : Int) = self
      · simp [h0, h2]
      · rw [if_neg (by simp; omega), if_neg (by omega), if_pos ⟨h0, h1, h2⟩]
    · have hpid : pidOfName (c :: cs) = none := by
        unfold pidOfName
        rw [if_neg]
        rw [hall]
        tauto
      rw [hpid]
      split
      · rfl
      · have hrest : (strtoul10 (c :: cs)).2 ≠ [] := by
          rw [hst]
          simp only
          split
          · simp
          · have : (c :: cs).dropWhile isDigit ≠ [] := by
              rw [ne_eq, List.dropWhile_eq_nil_iff, ← List.all_eq_true]
              exact hdig
            split <;> exact this
        rw [if_pos (Or.inr hrest)]

open Classical in
theorem procLoop_spec (self : Int) (exe : Int → Bool) (cb : List Int → Int → Int) : ∀ (names : List (List Byte)),
    (∀ n ∈ names, ProcName n) → ∀ (done : List Int) (ret : Int), (ret = 0 ∨ ret = -1) →
    ∃ visited rest, names.filterMap (eligible self exe) = visited ++ rest ∧
      (procLoop self exe cb names done ret).1 = done.reverse ++ visited ∧
      (rest ≠ [] → ∃ before pid, visited = before ++ [pid] ∧ cb (before.reverse ++ done) pid = -2) ∧
      (procLoop self exe cb names done ret).2 =
        (if ret = -1 ∨ ∃ before pid after, visited = before ++ pid :: after ∧ cb (before.reverse ++ done) pid < 0
         then -1 else 0) := by
  intro names
  induction names with
  | nil =>
    intro _ done ret hret
    refine ⟨[], [], rfl, by simp [procLoop], by simp, ?_⟩
    simp only [procLoop]
    rcases hret with rfl | rfl <;> simp
  | cons name names ih =>
    intro hn done ret hret
    have hp := procPid_spec self (hn name (by simp))
    have hn' : ∀ n ∈ names, ProcName n := fun n h => hn n (List.mem_cons_of_mem _ h)
    have skip : eligible self exe name = none → (procLoop self exe cb (name :: names) done ret =
        procLoop self exe cb names done ret) → ∃ visited rest,
        (name :: names).filterMap (eligible self exe) = visited ++ rest ∧
        (procLoop self exe cb (name :: names) done ret).1 = done.reverse ++ visited ∧
        (rest ≠ [] → ∃ before pid, visited = before ++ [pid] ∧ cb (before.reverse ++ done) pid = -2) ∧
        (procLoop self exe cb (name :: names) done ret).2 =
          (if ret = -1 ∨ ∃ before pid after, visited = before ++ pid :: after ∧ cb (before.reverse ++ done) pid < 0
           then -1 else 0) := by
      intro he heq
      rw [heq]
      obtain ⟨v, r, h1, h2, h3, h4⟩ := ih hn' done ret hret
      exact ⟨v, r, by rw [List.filterMap_cons_none he, h1], h2, h3, h4⟩
    cases hpp : procPid self name with
    | none =>
      refine skip ?_ ?_
      · rw [hpp] at hp
        unfold eligible
        cases hq : pidOfName name with
        | none => rfl
        | some n =>
          rw [hq] at hp
          dsimp only at hp ⊢
          split at hp
          · cases hp
          · rename_i hc
            rw [if_neg]
            tauto
      · simp [procLoop, hpp]
    | some pid =>
      cases hexe : exe pid with
      | false =>
        refine skip ?_ ?_
        · rw [hpp] at hp
          unfold eligible
          cases hq : pidOfName name with
          | none => rfl
          | some n =>
            rw [hq] at hp
            dsimp only at hp ⊢
            split at hp
            · cases hp
              simp [hexe]
            · cases hp
        · simp [procLoop, hpp, hexe]
      | true =>
        have he : eligible self exe name = some pid := by
          rw [hpp] at hp
          unfold eligible
          cases hq : pidOfName name with
          | none => rw [hq] at hp; cases hp
          | some n =>
            rw [hq] at hp
            dsimp only at hp ⊢
            split at hp
            · rename_i hc
              cases hp
              rw [if_pos ⟨hc.1, hc.2.1, hc.2.2, hexe⟩]
            · cases hp
        rw [List.filterMap_cons_some he]
        simp only [procLoop, hpp, hexe, if_true]
        by_cases h2 : cb done pid = -2
        · rw [if_pos h2, if_pos (show cb done pid < 0 by omega)]
          refine ⟨[pid], names.filterMap (eligible self exe), rfl, by simp, fun _ => ⟨[], pid, rfl, by simpa using h2⟩, ?_⟩
          rw [if_pos]
          exact Or.inr ⟨[], pid, [], rfl, by simp; omega⟩
        · rw [if_neg h2]
          obtain ⟨v, r, h1, h3, h4, h5⟩ := ih hn' (pid :: done) (if cb done pid < 0 then -1 else ret) (by split <;> tauto)
          refine ⟨pid :: v, r, by rw [h1]; rfl, by rw [h3]; simp, ?_, ?_⟩
          · intro hr
            obtain ⟨b, p, e1, e2⟩ := h4 hr
            exact ⟨pid :: b, p, by rw [e1]; rfl, by simpa using e2⟩
          · rw [h5]
            congr 1
            apply propext
            constructor
            · rintro (h | ⟨b, p, a, e1, e2⟩)
              · by_cases hneg : cb done pid < 0
                · exact Or.inr ⟨[], pid, v, rfl, by simpa using hneg⟩
                · rw [if_neg hneg] at h; exact Or.inl h
              · exact Or.inr ⟨pid :: b, p, a, by rw [e1]; rfl, by simpa using e2⟩
            · rintro (h | ⟨b, p, a, e1, e2⟩)
              · left; split
                · rfl
                · exact h
              · cases b with
                | nil =>
                  simp only [List.nil_append, List.cons.injEq] at e1
                  obtain ⟨rfl, rfl⟩ := e1
                  left
                  rw [if_pos (by simpa using e2)]
                | cons x b =>
                  simp only [List.cons_append, List.cons.injEq] at e1
                  obtain ⟨rfl, e1⟩ := e1
                  exact Or.inr ⟨b, p, a, e1, by simpa using e2⟩

/-- C55.  A patch or unpatch command over all processes (pid -1), for every listing of /proc, every set of readable
executables and every behaviour of the work on each process (`cb`, which may depend on what was done before):
* it visits a prefix of the eligible processes, in the order of the listing, so never init, itself or a kernel thread;
* it stops before the end only after a process for which the work returned -2, the code for stopping;
* its result is -1 if the work failed (was negative) on any visited process, and 0 otherwise. -/
theorem C55_all_processes (names : List (List Byte)) (hn : ∀ n ∈ names, ProcName n) (self : Int) (exe : Int → Bool)
    (cb : List Int → Int → Int) :
    ∃ visited rest, names.filterMap (eligible self exe) = visited ++ rest ∧
      (processesDo (some names) self exe cb (-1)).1 = visited ∧
      (rest ≠ [] → ∃ before pid, visited = before ++ [pid] ∧ cb before.reverse pid = -2) ∧
      ((processesDo (some names) self exe cb (-1)).2 = -1 ↔
        ∃ before pid after, visited = before ++ pid :: after ∧ cb before.reverse pid < 0) ∧
      ((processesDo (some names) self exe cb (-1)).2 = -1 ∨ (processesDo (some names) self exe cb (-1)).2 = 0) := by
  obtain ⟨v, r, h1, h2, h3, h4⟩ := procLoop_spec self exe cb names hn [] 0 (Or.inl rfl)
  refine ⟨v, r, h1, by simpa [processesDo] using h2, by simpa using h3, ?_, ?_⟩
  · simp only [processesDo, ne_eq, not_true_eq_false, if_false]
    rw [h4]
    split
    · rename_i hc
      simp only [show ¬ ((0 : Int) = -1) by omega, false_or] at hc
      simpa using hc
    · rename_i hc
      simp only [show ¬ ((0 : Int) = -1) by omega, false_or] at hc
      simpa using hc
  · simp only [processesDo, ne_eq, not_true_eq_false, if_false]
    rw [h4]
    split
    · exact Or.inl rfl
    · exact Or.inr rfl

/-- C55 for one process: exactly this process, with its result. -/
theorem C55_one_process (proc : Option (List (List Byte))) (self : Int) (exe : Int → Bool) (cb : List Int → Int → Int)
    (pid : Int) (h : pid ≠ -1) : processesDo proc self exe cb pid = ([pid], cb [] pid) := by
  simp [processesDo, h]

/-- C55: when /proc cannot be read the command fails. -/
theorem C55_no_proc (self : Int) (exe : Int → Bool) (cb : List Int → Int → Int) :
    (processesDo none self exe cb (-1)).2 = -1 := by
  simp [processesDo]

/-- Violation: `info` without -p or with `-p all`, "for all the system processes" in its usage message, asks about
process -1 or 0 only. -/
theorem C55_violated_info_all : cmdInfo [] (-1) = .info (-1) ∧ cmdInfo [.pid allText] (-1) = .info 0 := by
  exact ⟨rfl, by simp [cmdInfo]; decide +kernel⟩

/-- Example: the listing `.`, `1`, `42`, `self`, `7`, with process 7 the command itself and 42 failing. -/
example : (processesDo (some [[46], [49], [52, 50], [115, 101, 108, 102], [55]]) 7 (fun _ => true)
    (fun _ p => if p = 42 then -1 else 0) (-1)) = ([42], -1) := by decide +kernel

example : ∀ n ∈ ([[46], [49], [52, 50], [115, 101, 108, 102], [55]] : List (List Byte)), ProcName n := by
  intro n hn
  simp only [List.mem_cons, List.not_mem_nil, or_false] at hn
  rcases hn with rfl | rfl | rfl | rfl | rfl <;>
  · refine ⟨by simp, ?_, ?_⟩
    · intro c hc
      simp at hc
      subst hc
      decide
    · intro m hm
      simp [pidOfName] at hm <;> omega

/-! ### C58: what the options select and what wrong invocations report -/

theorem atoi_spec (name : List Byte) (h : ProcName name) (n : Nat) (hn : pidOfName name = some n) : atoi name = n := by
  have hb := h.2.2 n hn
  obtain ⟨hne, hhead, hlt⟩ := h
  cases name with
  | nil => exact absurd rfl hne
  | cons c cs =>
    obtain ⟨hsp, hp, hm⟩ := hhead c rfl
    have hdw : (c :: cs).dropWhile isSpace = c :: cs := by rw [List.dropWhile_cons_of_neg (by simp [hsp])]
    unfold pidOfName at hn
    split at hn
    · rename_i hc
      have hall : ∀ x ∈ c :: cs, isDigit x = true := by
        intro x hx
        rw [isDigit_iff]
        exact List.all_eq_true.mp hc.2 x hx
      have htw : (c :: cs).takeWhile isDigit = c :: cs := by
        rw [List.takeWhile_eq_self_iff]; exact hall
      cases hn
      change digitsVal (c :: cs) < 2 ^ 31 at hb
      change _ = (digitsVal (c :: cs) : Int)
      unfold atoi strtoul10
      simp only [hdw, List.head?_cons, Option.some.injEq, hp, hm, or_self, if_false, htw]
      rw [if_neg (by simp), if_neg (by omega)]
      unfold toInt32
      generalize digitsVal (c :: cs) = v at hb
      rw [BitVec.toInt_eq_toNat_of_lt]
      · simp only [BitVec.toNat_setWidth, BitVec.toNat_ofNat]; omega
      · simp only [BitVec.toNat_setWidth, BitVec.toNat_ofNat]; omega
    · cases hn

/-- C58, first part.  `patch -p N` and `unpatch -p N -i ID` (in any order of the options) with a decimal process number
act on exactly process `N`, whatever /proc contains; with `-p all` they act on all processes.
Missing: wrong invocations report failure (false, see below). -/
theorem C58_pid_selected_partial (argc : Nat) (hargc : 4 ≤ argc) (name : List Byte) (h : ProcName name) (n : Nat)
    (hn : pidOfName name = some n) (id : List Byte) :
    cmdPatch argc [.pid name] = .processes n ∧ cmdPatch argc [.pid allText] = .processes (-1) ∧
    cmdUnpatch argc [.pid name, .patchId id] = .processes n ∧ cmdUnpatch argc [.patchId id, .pid name] = .processes n ∧
    cmdUnpatch argc [.pid allText, .patchId id] = .processes (-1) := by
  have ha := atoi_spec name h n hn
  have hall : name ≠ allText := by
    rintro rfl
    have : pidOfName allText = none := by decide
    rw [this] at hn
    cases hn
  have hc : ¬ argc < 4 := by omega
  simp [cmdPatch, cmdUnpatch, patchOpts, unpatchOpts, hc, hall, ha]

/-- The last -p with something else than "all" is followed by -p all at most. -/
def LastPid (opts : List CmdOpt) (name : List Byte) : Prop :=
  ∃ pre post, opts = pre ++ .pid name :: post ∧ name ≠ allText ∧ ∀ a, .pid a ∈ post → a = allText

/-- How the options of `patch` and `unpatch` name processes: all of them, by -p all only, or one, by the last -p with
something else than "all". -/
def NamesProcs (opts : List CmdOpt) (p : Int) : Prop :=
  (p = -1 ∧ .pid allText ∈ opts ∧ ∀ a, .pid a ∈ opts → a = allText) ∨ ∃ name, LastPid opts name ∧ p = atoi name

theorem lastPid_cons (o : CmdOpt) (os : List CmdOpt) (name : List Byte) (h : LastPid os name) :
    LastPid (o :: os) name := by
  obtain ⟨pre, post, h1, h2⟩ := h
  exact ⟨o :: pre, post, by rw [h1]; rfl, h2⟩

/-- What an option loop knows at its end. -/
def OptsInv (opts : List CmdOpt) (st : Int × Bool) (p : Int) (set : Bool) : Prop :=
  (set = true ∧ ∃ name, LastPid opts name ∧ p = atoi name) ∨
  ((∀ a, .pid a ∈ opts → a = allText) ∧ p = st.1 ∧ (set = true → st.2 = true ∨ .pid allText ∈ opts))

theorem optsInv_pid (a : List Byte) (os : List CmdOpt) (st : Int × Bool) (p : Int) (set : Bool)
    (h : OptsInv os (if a = allText then st.1 else atoi a, true) p set) (hset : set = true) :
    OptsInv (.pid a :: os) st p set := by
  rcases h with ⟨h1, name, h2, h3⟩ | ⟨h1, h2, h3⟩
  · exact .inl ⟨h1, name, lastPid_cons _ _ _ h2, h3⟩
  · by_cases ha : a = allText
    · rw [if_pos ha] at h2
      refine .inr ⟨?_, h2, fun _ => .inr (by rw [ha]; exact List.mem_cons_self ..)⟩
      intro b hb
      rcases List.mem_cons.1 hb with hb | hb
      · cases hb
        exact ha
      · exact h1 b hb
    · rw [if_neg ha] at h2
      exact .inl ⟨hset, a, ⟨[], os, rfl, ha, h1⟩, h2⟩

theorem patchOpts_names (opts : List CmdOpt) (st : Int × Bool) (p : Int)
    (h : patchOpts opts st = .inr (p, true)) : OptsInv opts st p true := by
  induction opts generalizing st with
  | nil =>
    cases h
    exact .inr ⟨by simp, rfl, fun h => .inl h⟩
  | cons o os ih =>
    cases o with
    | pid a => exact optsInv_pid a os st p true (ih _ h) rfl
    | _ => cases h

theorem unpatchOpts_names (opts : List CmdOpt) (st : Int × Bool × Option (List Byte)) (p : Int) (id : List Byte)
    (h : unpatchOpts opts st = .inr (p, true, some id)) :
    OptsInv opts (st.1, st.2.1) p true ∧ (st.2.2 = some id ∨ .patchId id ∈ opts) := by
  induction opts generalizing st with
  | nil =>
    cases h
    exact ⟨.inr ⟨by simp, rfl, fun h => .inl h⟩, .inl rfl⟩
  | cons o os ih =>
    cases o with
    | pid a =>
      obtain ⟨h1, h2⟩ := ih _ h
      exact ⟨optsInv_pid a os (st.1, st.2.1) p true h1 rfl, h2.imp (fun h => h) (List.mem_cons_of_mem _)⟩
    | patchId a =>
      obtain ⟨h1, h2⟩ := ih _ h
      refine ⟨?_, ?_⟩
      · rcases h1 with ⟨g1, name, g2, g3⟩ | ⟨g1, g2, g3⟩
        · exact .inl ⟨g1, name, lastPid_cons _ _ _ g2, g3⟩
        · refine .inr ⟨?_, g2, fun hs => (g3 hs).imp (fun h => h) (List.mem_cons_of_mem _)⟩
          intro b hb
          rcases List.mem_cons.1 hb with hb | hb
          · cases hb
          · exact g1 b hb
      · rcases h2 with h2 | h2
        · exact .inr (by cases h2; exact List.mem_cons_self ..)
        · exact .inr (List.mem_cons_of_mem _ h2)
    | _ => cases h

/-- Whatever options are given, `patch` and `unpatch` touch processes only when told to by -p, only the one which the
last -p names or all of them for -p all alone; and `unpatch` only with a patch id. -/
theorem C58_only_named (argc : Nat) (opts : List CmdOpt) (p : Int) :
    (cmdPatch argc opts = .processes p → NamesProcs opts p) ∧
    (cmdUnpatch argc opts = .processes p → NamesProcs opts p ∧ ∃ id, .patchId id ∈ opts) := by
  have key : ∀ q, OptsInv opts (-1, false) q true → NamesProcs opts q := by
    intro q h
    rcases h with ⟨_, name, h1, h2⟩ | ⟨h1, h2, h3⟩
    · exact .inr ⟨name, h1, h2⟩
    · exact .inl ⟨h2, (h3 rfl).resolve_left (by simp), h1⟩
  have hl : ∀ os st, patchOpts os st ≠ .inl (.processes p) := by
    intro os
    induction os with
    | nil =>
      intro st h
      cases h
    | cons o os ih =>
      intro st h
      cases o with
      | pid a => exact ih _ h
      | _ => cases h
  have hl' : ∀ os st, unpatchOpts os st ≠ .inl (.processes p) := by
    intro os
    induction os with
    | nil =>
      intro st h
      cases h
    | cons o os ih =>
      intro st h
      cases o with
      | pid a => exact ih _ h
      | patchId a => exact ih _ h
      | _ => cases h
  constructor
  · intro h
    unfold cmdPatch at h
    by_cases hc : argc < 4
    · rw [if_pos hc] at h
      cases h
    · rw [if_neg hc] at h
      cases hp : patchOpts opts (-1, false) with
      | inl r =>
        rw [hp] at h
        exact absurd (hp.trans (congrArg _ h)) (hl _ _)
      | inr st =>
        obtain ⟨q, set⟩ := st
        rw [hp] at h
        cases set with
        | false => cases h
        | true =>
          cases h
          exact key _ (patchOpts_names _ _ _ hp)
  · intro h
    unfold cmdUnpatch at h
    by_cases hc : argc < 4
    · rw [if_pos hc] at h
      cases h
    · rw [if_neg hc] at h
      cases hp : unpatchOpts opts (-1, false, none) with
      | inl r =>
        rw [hp] at h
        exact absurd (hp.trans (congrArg _ h)) (hl' _ _)
      | inr st =>
        obtain ⟨q, set, id⟩ := st
        rw [hp] at h
        cases set with
        | false => cases h
        | true =>
          cases id with
          | none => cases h
          | some id =>
            cases h
            obtain ⟨h1, h2⟩ := unpatchOpts_names _ _ _ _ hp
            exact ⟨key _ h1, id, h2.resolve_left (by simp)⟩

/-- Violation: a process number which is not one can name all processes. -/
theorem C58_violated_number_wraps : cmdPatch 4 [.pid [52, 50, 57, 52, 57, 54, 55, 50, 57, 53]] = .processes (-1) := by
  have h : atoi [52, 50, 57, 52, 57, 54, 55, 50, 57, 53] = -1 := by decide +kernel
  simp only [cmdPatch, patchOpts, h]
  rfl

/-- Violation: `patch` without -p, `unpatch` without -i and any unknown option print an error message and report
success (result 0), though nothing was done. -/
theorem C58_violated_wrong_usage (argc : Nat) (hargc : 4 ≤ argc) (name : List Byte) (opts : List CmdOpt) :
    cmdPatch argc [] = .usage 0 ∧ cmdUnpatch argc [.pid name] = .usage 0 ∧ cmdPatch argc (.other :: opts) = .usage 0 ∧
    cmdUnpatch argc (.other :: opts) = .usage 0 ∧ ∀ p, cmdInfo (.other :: opts) p = .usage 0 := by
  have hc : ¬ argc < 4 := by omega
  simp [cmdPatch, cmdUnpatch, cmdInfo, patchOpts, unpatchOpts, hc, usageRet]

/-- Asking for help and too few arguments are reported as a failure (result -1); nothing is done. -/
theorem C58_help_and_too_few (argc : Nat) (opts : List CmdOpt) :
    cmdPatch argc (.help :: opts) = .usage (-1) ∧ cmdUnpatch argc (.help :: opts) = .usage (-1) ∧
    (∀ p, cmdInfo (.help :: opts) p = .usage (-1)) ∧
    (argc < 4 → cmdPatch argc opts = .usage (-1) ∧ cmdUnpatch argc opts = .usage (-1)) := by
  refine ⟨?_, ?_, ?_, ?_⟩
  · simp [cmdPatch, patchOpts, usageRet]
  · simp [cmdUnpatch, unpatchOpts, usageRet]
  · simp [cmdInfo, usageRet]
  · intro h
    simp [cmdPatch, cmdUnpatch, h, usageRet]

example : ProcName [52, 50] ∧ pidOfName [52, 50] = some 42 := by
  refine ⟨⟨by simp, ?_, ?_⟩, by decide⟩
  · intro c hc
    simp at hc
    subst hc
    decide
  · intro m hm
    simp [pidOfName] at hm
    omega

end Verif
