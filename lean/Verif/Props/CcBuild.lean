import Verif.Proof.CcBuild
import Verif.Props.Cc
/-
C76: a program built from several files by one command.
C77: the exit status of the compiler wrapper.
-/
namespace Verif

/-! ### C76 -/

/-- The positions of the input files are arguments that are passed on, once each. -/
theorem inputs_passed_on (e : CcEnv) (args : List CStr) (ha : ArgsOk args) (st : CcScan) (hst : st = ccDecide e args) :
    ((passedOn e.removeArgs st.nulls args).filter fun p => decide (p.2 ∈ st.inputs)).length = st.inputs.length ∧
    (∀ p ∈ passedOn e.removeArgs st.nulls args, 1 ≤ p.2 ∧ p.2 ≤ args.length ∧ argPos args p.2 = some p.1) ∧
    ∀ n, (n + 1 ∈ st.inputs → ∃ a, args[n]? = some a ∧ (a, n + 1) ∈ passedOn e.removeArgs st.nulls args) := by
  obtain ⟨j, hj⟩ := decide_inputs e args
  rw [← hst] at hj
  have hmem : ∀ p ∈ passedOn e.removeArgs st.nulls args, 1 ≤ p.2 ∧ p.2 ≤ args.length ∧ argPos args p.2 = some p.1 := by
    intro p hp
    unfold passedOn positions at hp
    have h1 := (List.mem_filter.1 hp).1
    obtain ⟨a, k⟩ := p
    have h2 := List.mk_mem_zipIdx_iff_le_and_getElem?_sub.1 h1
    have h3 : k - 1 < args.length := (List.getElem?_eq_some_iff.1 h2.2).1
    refine ⟨h2.1, by dsimp only; omega, ?_⟩
    unfold argPos
    rw [if_neg (by dsimp only; omega)]
    exact h2.2
  have hin : ∀ n, (n + 1 ∈ st.inputs → ∃ a, args[n]? = some a ∧ (a, n + 1) ∈ passedOn e.removeArgs st.nulls args) := by
    intro n hn
    obtain ⟨-, -, a, h1, h2⟩ := hj.arg _ hn
    unfold argPos at h1
    rw [if_neg (by omega), Nat.add_sub_cancel] at h1
    refine ⟨a, h1, ?_⟩
    unfold passedOn positions
    rw [List.mem_filter]
    refine ⟨?_, ?_⟩
    · rw [List.mk_mem_zipIdx_iff_le_and_getElem?_sub]
      exact ⟨by omega, by simpa using h1⟩
    · simp only [decide_eq_true_eq]
      refine ⟨hj.sep _ hn, ?_⟩
      rintro ⟨h3, -⟩
      exact (isOption_iff a (ha a (List.mem_of_getElem? h1))).1 h3 h2
  refine ⟨?_, hmem, hin⟩
  have hnd : ((passedOn e.removeArgs st.nulls args).filter fun p => decide (p.2 ∈ st.inputs)).map Prod.snd |>.Nodup := by
    have h1 : ((positions args).map Prod.snd).Nodup := by
      unfold positions
      rw [List.zipIdx_map_snd]
      exact List.nodup_range'
    refine List.Nodup.sublist ?_ h1
    apply List.Sublist.map
    exact List.Sublist.trans List.filter_sublist List.filter_sublist
  have hperm : (((passedOn e.removeArgs st.nulls args).filter fun p => decide (p.2 ∈ st.inputs)).map Prod.snd).Perm
      st.inputs := by
    rw [List.perm_ext_iff_of_nodup hnd hj.nodup]
    intro k
    constructor
    · intro hk
      obtain ⟨p, h1, rfl⟩ := List.mem_map.1 hk
      simpa using (List.mem_filter.1 h1).2
    · intro hk
      have := (hj.arg k hk).1
      obtain ⟨n, rfl⟩ : ∃ n, k = n + 1 := ⟨k - 1, by omega⟩
      obtain ⟨a, -, h2⟩ := hin n hk
      exact List.mem_map.2 ⟨(a, n + 1), List.mem_filter.2 ⟨h2, by simpa using hk⟩, rfl⟩
  have := hperm.length_eq
  rw [List.length_map] at this
  exact this

/-- The run for such a command line, with the arguments worked out. -/
theorem build_run (e : CcEnvB) (t : CcTools) (heap : Nat → Option CStr) (args : List CStr) (files : CcFiles)
    (st : CcScan) (hst : st = ccDecide e.toCcEnv args) (out lang : CStr) 
    (hconf : e.configure = false)
    (hconf' : (args.any fun a => hasSub a (lit "conftest.") || hasSub a (lit "qemu-conf")) = false)
    (hR : ArgsOk e.removeArgs) (hs : e.removeArgs.Pairwise fun a b => strcmp a b ≤ 0) (ha : ArgsOk args)
    (hact : st.action = .buildMultiple) (hout : st.output = some out)
    (hL : (st.idxLang = 0 ∧ lang = e.realgcc) ∨ (lang, st.idxLang) ∈ passedOn e.removeArgs st.nulls args)
    (happ : (passedOn e.removeArgs st.nulls args).length + e.appendArgs.length ≤ args.length) :
    let kept := passedOn e.removeArgs st.nulls args
    let others := e.realgcc :: (kept.filter fun p => p.2 ∉ st.inputs).map Prod.fst ++ e.appendArgs
    ccMain e t heap args files = ((buildInputs e t others lang out
      (kept.map (fun p => (p.1, if p.2 ∈ st.inputs then some p.1 else none)) ++ e.appendArgs.map fun a => (a, none))
      ⟨files, []⟩).andThen fun r w => runGcc t ([e.realgcc] ++ r ++ [dashO, out]) w).end_ := by
  intro kept others
  have hK := passedOn_eq e.removeArgs hR hs st.nulls args ha
  obtain ⟨hcount, hpos, hin⟩ := inputs_passed_on e.toCcEnv args ha st hst
  obtain ⟨j, hj⟩ := decide_inputs e.toCcEnv args
  rw [← hst] at hj
  generalize hLs : ccNullify e.removeArgs (nullArgv args st.nulls) = L at hK
  have hLlen : L.length = args.length := by
    rw [← hLs]; unfold ccNullify nullArgv; simp
  have hkeep : keptOf L 1 = kept := hK
  -- the array of inputs after the compaction
  have hrem : ∀ n, L[n]? = some none → inputArray args st heap (1 + n) = none := by
    intro n hn
    unfold inputArray
    have hlt : n < L.length := (List.getElem?_eq_some_iff.1 hn).1
    rw [if_pos (by omega)]
    by_cases hm : 1 + n ∈ st.inputs
    · exfalso
      rw [Nat.add_comm] at hm
      obtain ⟨a, h1, h2⟩ := hin n hm
      rw [← hLs] at hn
      have h3 := hj.sep _ hm
      have h4 : ccRemoved e.removeArgs a = false := by
        cases hc : ccRemoved e.removeArgs a with
        | false => rfl
        | true =>
          exfalso
          have := (List.mem_filter.1 h2).2
          simp only [decide_eq_true_eq] at this
          exact this.2 (ccRemoved_sound _ _ hR (ha _ (List.mem_of_getElem? h1)) hc)
      unfold ccNullify nullArgv at hn
      rw [List.getElem?_map, List.getElem?_mapIdx, h1] at hn
      simp [h3, h4] at hn
    · rw [if_neg hm]
  obtain ⟨-, c2, c3, -⟩ := compactInputs_spec L 1 1 (inputArray args st heap) (Nat.le_refl _)
    (fun k h1 h2 => by omega) hrem
  have c1 := (compactInputs_spec L 1 1 (inputArray args st heap) (Nat.le_refl _)
    (fun k h1 h2 => by omega) hrem).1 0 (by omega)
  rw [hkeep] at c2 c3
  generalize hinp : compactInputs L 1 1 (inputArray args st heap) = inp at c1 c2 c3
  have hz : inp 0 = none := by
    rw [c1]
    unfold inputArray
    rw [if_pos (by omega)]
    by_cases h0 : 0 ∈ st.inputs
    · have := (hj.arg 0 h0).1; omega
    · rw [if_neg h0]
  have hval : ∀ n p, kept[n]? = some p → inp (1 + n) = if p.2 ∈ st.inputs then some p.1 else none := by
    intro n p hp
    rw [c2 n p hp]
    obtain ⟨h1, h2, h3⟩ := hpos p (List.mem_of_getElem? hp)
    unfold inputArray
    rw [if_pos h2]
    by_cases hm : p.2 ∈ st.inputs
    · rw [if_pos hm, if_pos hm]; exact h3
    · rw [if_neg hm, if_neg hm]
  have hvalA : ∀ n, n < e.appendArgs.length → inp (1 + kept.length + n) = none := by
    intro n hn
    exact c3 _ (by omega) (by rw [hLlen]; have : kept.length + e.appendArgs.length ≤ args.length := happ; omega)
  -- the arguments with their entries
  have hzip : ((kept.map Prod.fst ++ e.appendArgs).zipIdx 1).map (fun p => (p.1, inp p.2)) =
      kept.map (fun p => (p.1, if p.2 ∈ st.inputs then some p.1 else none)) ++ e.appendArgs.map fun a => (a, none) := by
    apply List.ext_getElem?
    intro n
    rw [List.getElem?_map, List.getElem?_zipIdx]
    by_cases hn : n < kept.length
    · rw [List.getElem?_append_left (by simpa using hn), List.getElem?_append_left (by simpa using hn),
        List.getElem?_map, List.getElem?_map]
      rw [List.getElem?_eq_getElem hn]
      simp only [Option.map_some]
      rw [hval n _ (List.getElem?_eq_getElem hn)]
    · rw [List.getElem?_append_right (by simpa using hn), List.getElem?_append_right (by simpa using hn),
        List.length_map, List.length_map, List.getElem?_map]
      by_cases hn2 : n - kept.length < e.appendArgs.length
      · rw [List.getElem?_eq_getElem hn2]
        simp only [Option.map_some]
        have := hvalA _ hn2
        rw [show 1 + kept.length + (n - kept.length) = 1 + n by omega] at this
        rw [this]
      · rw [List.getElem?_eq_none (by omega)]
        rfl
  -- the run
  unfold ccMain
  rw [if_neg (by simp [hconf, hconf']), ← hst] 
  dsimp only 
  rw [hact] 
  dsimp only 
  have hmod : ccModify e.toCcEnv args st = (e.realgcc :: kept.map Prod.fst ++ e.appendArgs,
      ⟨compIdx L 1 1 st.idxInput, compIdx L 1 1 st.idxAction, compIdx L 1 1 st.idxLang⟩) := by
    unfold ccModify
    rw [hLs, ccCompact_eq, hkeep]
  rw [hmod, hLs, hinp, hout, Option.getD_some] 
  dsimp only 
  have hlang : ((e.realgcc :: kept.map Prod.fst ++ e.appendArgs)[compIdx L 1 1 st.idxLang]?).getD [] = lang := by
    rcases hL with ⟨h1, h2⟩ | h1
    · rw [h1, compIdx_before L 1 1 0 (by omega) (by omega), h2]; rfl
    · have hk : (lang, st.idxLang) ∈ keptOf L 1 := by rw [hkeep]; exact h1
      have := get_tracked L st.idxLang lang hk e.realgcc e.appendArgs Prod.fst
      rw [hkeep] at this
      rw [this]; rfl
  rw [hlang] 
  have hothers : ((((e.realgcc :: kept.map Prod.fst ++ e.appendArgs).zipIdx).filter fun p => (inp p.2).isNone).map
      Prod.fst) = others := by
    have h1 : ((e.realgcc :: kept.map Prod.fst ++ e.appendArgs).zipIdx).filter (fun p => (inp p.2).isNone) =
        (e.realgcc, 0) :: ((kept.map Prod.fst ++ e.appendArgs).zipIdx 1).filter (fun p => (inp p.2).isNone) := by
      rw [List.cons_append, List.zipIdx_cons, List.filter_cons, if_pos (by rw [hz]; rfl)]
    have h2 : (((kept.map Prod.fst ++ e.appendArgs).zipIdx 1).filter (fun p => (inp p.2).isNone)).map Prod.fst =
        ((((kept.map Prod.fst ++ e.appendArgs).zipIdx 1).map (fun p => (p.1, inp p.2))).filter
          fun p => p.2.isNone).map Prod.fst := by
      rw [List.filter_map, List.map_map]; rfl
    rw [h1, List.map_cons, h2, hzip, List.filter_append, List.map_append, List.filter_map, List.filter_map,
      List.map_map, List.map_map]
    show _ = e.realgcc :: (kept.filter fun p => p.2 ∉ st.inputs).map Prod.fst ++ e.appendArgs
    rw [List.cons_append]
    congr 1
    congr 1
    · congr 1
      apply List.filter_congr
      intro p _
      by_cases hm : p.2 ∈ st.inputs <;> simp [hm]
    · have : ((fun p : CStr × Option CStr => p.2.isNone) ∘ fun a : CStr => (a, (none : Option CStr))) = fun _ => true := by
        funext a; rfl
      rw [this, List.filter_eq_self.2 (fun _ _ => rfl)]
      show e.appendArgs.map (Prod.fst ∘ fun a => (a, (none : Option CStr))) = _
      have : (Prod.fst ∘ fun a : CStr => (a, (none : Option CStr))) = id := by funext a; rfl
      rw [this, List.map_id]
  have hlen : others.length + st.inputs.length = (e.realgcc :: kept.map Prod.fst ++ e.appendArgs).length := by
    show (e.realgcc :: (kept.filter fun p => p.2 ∉ st.inputs).map Prod.fst ++ e.appendArgs).length + _ = _
    have h1 : (kept.filter fun p => decide (p.2 ∈ st.inputs)).length +
        (kept.filter fun p => decide (p.2 ∉ st.inputs)).length = kept.length := filter_count st.inputs kept
    have h3 : (kept.filter fun p => decide (p.2 ∈ st.inputs)).length = st.inputs.length := hcount
    simp only [List.length_append, List.length_cons, List.length_map]
    omega
  have htake : others.take ((e.realgcc :: kept.map Prod.fst ++ e.appendArgs).length + 5 - st.inputs.length) = others := by
    apply List.take_of_length_le
    omega
  have htail : (e.realgcc :: kept.map Prod.fst ++ e.appendArgs).tail = kept.map Prod.fst ++ e.appendArgs := rfl
  unfold buildMultipleW
  dsimp only
  rw [hothers, htake, if_neg (by omega), htail, hzip]
  rfl

/-- **C76**, the commands (partial: the removal list in the order of `strcmp`, see C52, and no more arguments
appended than removed, see `C76_violated_append`).  For every command line that builds from its input files:
the real compiler is run for the inputs to compile, in order, each time with all the user's arguments that
are passed on and are no input files, and at last with the arguments of the user, in order, in which
each input has been replaced by its assembler file or left alone.  If the wrapper exits with 0 these are the runs
of the compiler, otherwise some first of them. -/
theorem C76_commands_partial (e : CcEnvB) (t : CcTools) (heap : Nat → Option CStr) (args : List CStr) (files : CcFiles)
    (st : CcScan) (hst : st = ccDecide e.toCcEnv args) (out lang : CStr) (rc : Nat) (w : CcW)
    (hconf : e.configure = false)
    (hconf' : (args.any fun a => hasSub a (lit "conftest.") || hasSub a (lit "qemu-conf")) = false)
    (hR : ArgsOk e.removeArgs) (hs : e.removeArgs.Pairwise fun a b => strcmp a b ≤ 0) (ha : ArgsOk args)
    (hact : st.action = .buildMultiple) (hout : st.output = some out)
    (hL : (st.idxLang = 0 ∧ lang = e.realgcc) ∨ (lang, st.idxLang) ∈ passedOn e.removeArgs st.nulls args)
    (happ : (passedOn e.removeArgs st.nulls args).length + e.appendArgs.length ≤ args.length)
    (hrun : ccMain e t heap args files = .exit rc w) :
    let kept := passedOn e.removeArgs st.nulls args
    let others := e.realgcc :: (kept.filter fun p => p.2 ∉ st.inputs).map Prod.fst ++ e.appendArgs
    let compiles := (kept.filter fun p => p.2 ∈ st.inputs).filterMap fun p =>
      match treatment e.gensrcAsm (getFileType lang p.1) with
      | .compiled opt => some (others ++ [opt, p.1, lit "-o", asmFile e out p.1])
      | _ => none
    let link := e.realgcc :: (kept.map fun p =>
        if p.2 ∈ st.inputs ∧ treatment e.gensrcAsm (getFileType lang p.1) ≠ .asIs then linkedFile e out p.1 else p.1)
      ++ e.appendArgs ++ [lit "-o", out]
    gccRuns w.log <+: compiles ++ [link] ∧ (rc = 0 → gccRuns w.log = compiles ++ [link]) := by
  intro kept others compiles link
  have hcmds : ∃ r : CcRes Unit, Cmds ⟨files, []⟩ () (compiles ++ [link]) r ∧ r.end_ = .exit rc w ∧
      StepOk ⟨files, []⟩ r := by
    have hb := build_run e t heap args files st hst out lang hconf hconf' hR hs ha hact hout hL happ
    rw [hrun] at hb
    refine ⟨_, ?_, hb.symm, (stepOk_buildInputs e t _ lang out _ _).andThen fun _ w => stepOk_gcc t _ w⟩
    have h1 := cmds_buildInputs e t others lang out
      (kept.map (fun p : CStr × Nat => (p.1, if p.2 ∈ st.inputs then some p.1 else none)) ++ e.appendArgs.map fun a => (a, none))
      ⟨files, []⟩
    have hc : ((kept.map (fun p : CStr × Nat => (p.1, if p.2 ∈ st.inputs then some p.1 else none)) ++
        e.appendArgs.map fun a => (a, none)).flatMap (entryCmds e others lang out)) = compiles := by
      rw [List.flatMap_append, List.flatMap_map, List.flatMap_map]
      have hnil : e.appendArgs.flatMap (fun a => entryCmds e others lang out (a, none)) = [] := by
        simp [entryCmds]
      rw [hnil, List.append_nil]
      exact inputs_flat e others lang out st.inputs kept
    have hr : ((kept.map (fun p : CStr × Nat => (p.1, if p.2 ∈ st.inputs then some p.1 else none)) ++
        e.appendArgs.map fun a => (a, none)).map (entryTo e lang out)) = (kept.map fun p =>
        if p.2 ∈ st.inputs ∧ treatment e.gensrcAsm (getFileType lang p.1) ≠ .asIs then linkedFile e out p.1 else p.1)
        ++ e.appendArgs := by
      rw [List.map_append, List.map_map, List.map_map]
      congr 1
      · apply List.map_congr_left
        intro p _
        by_cases hm : p.2 ∈ st.inputs
        · simp only [Function.comp, hm, if_true, true_and, entryTo]
          unfold inputTo
          cases treatment e.gensrcAsm (getFileType lang p.1) <;> simp
        · simp [hm, entryTo]
      · have : (entryTo e lang out ∘ fun a => (a, none)) = id := by funext a; rfl
        rw [this, List.map_id]
    rw [hc, hr] at h1
    refine Cmds.andThen h1 fun w' => ?_
    have := cmds_gcc t link w'
    have hlk : [e.realgcc] ++ ((kept.map fun p : CStr × Nat =>
        if p.2 ∈ st.inputs ∧ treatment e.gensrcAsm (getFileType lang p.1) ≠ .asIs then linkedFile e out p.1 else p.1)
        ++ e.appendArgs) ++ [dashO, out] = link := by
      show _ = e.realgcc :: _ ++ e.appendArgs ++ [lit "-o", out]
      simp only [List.cons_append, List.nil_append]
      rfl
    show Cmds w' () [link] (runGcc t ([e.realgcc] ++ _ ++ [dashO, out]) w')
    rw [hlk]
    exact this
  obtain ⟨r, h1, h2, h3⟩ := hcmds
  cases r with
  | ok a w' =>
    simp only [CcRes.end_, CcEnd.exit.injEq] at h2
    obtain ⟨rfl, rfl⟩ := h2
    obtain ⟨-, h4⟩ := h1
    have : gccRuns ([] : List (CcCall × Nat)) = [] := rfl
    rw [this, List.nil_append] at h4
    rw [h4]
    exact ⟨List.prefix_refl _, fun _ => rfl⟩
  | stop s w' =>
    simp only [CcRes.end_, CcEnd.exit.injEq] at h2
    obtain ⟨rfl, rfl⟩ := h2
    obtain ⟨pre, h4, h5⟩ := h1
    have : gccRuns ([] : List (CcCall × Nat)) = [] := rfl
    rw [this, List.nil_append] at h5
    rw [h5]
    exact ⟨h4, fun h => absurd h h3.1⟩

/-- A user's command line. -/
def c76Args : List CStr := [lit "-g", lit "-O2", lit "-o", lit "prog", lit "a.c", lit "lib/b.o", lit "src/c.cpp", lit "-lm"]

/-- Its environment. -/
def c76Env : CcEnvB :=
  { realgcc := lit "gcc", removeArgs := [lit "-g"], appendArgs := [lit "-fno-x"], patched := false,
    dbgArgs := [], patchArgs := [] }

/-- A compiler that succeeds and writes one byte to the file named last. -/
def exTools : CcTools :=
  { gcc := fun argv fs => (0, fun n => if n = argv.getLastD [] then some [1#8] else fs n)
    gensrc := fun argv fs => (0, fun n => if n = argv.getLastD [] then some [2#8] else fs n)
    renameFails := fun _ _ _ => false }

/-- The runs of the compiler, if the wrapper ends with an exit status. -/
def endRuns : CcEnd → Option (Nat × List (List CStr))
  | .exec _ => none
  | .exit s w => some (s, gccRuns w.log)

example : endRuns (ccMain c76Env exTools (fun _ => none) c76Args (fun _ => none)) = some (0,
    [[lit "gcc", lit "-O2", lit "-lm", lit "-fno-x", lit "-S", lit "a.c", lit "-o", lit "./.kpatch_a.c.original.s"],
     [lit "gcc", lit "-O2", lit "-lm", lit "-fno-x", lit "-S", lit "src/c.cpp", lit "-o", lit "src/.kpatch_c.cpp.original.s"],
     [lit "gcc", lit "-O2", lit "./.kpatch_a.c.original.s", lit "lib/b.o", lit "src/.kpatch_c.cpp.original.s", lit "-lm",
      lit "-fno-x", lit "-o", lit "prog"]]) := by
  decide +kernel

/-- The theorem says the same of it, for every compiler. -/
example (t : CcTools) (heap : Nat → Option CStr) (files : CcFiles) (w : CcW)
    (h : ccMain c76Env t heap c76Args files = .exit 0 w) : gccRuns w.log =
    [[lit "gcc", lit "-O2", lit "-lm", lit "-fno-x", lit "-S", lit "a.c", lit "-o", lit "./.kpatch_a.c.original.s"],
     [lit "gcc", lit "-O2", lit "-lm", lit "-fno-x", lit "-S", lit "src/c.cpp", lit "-o", lit "src/.kpatch_c.cpp.original.s"],
     [lit "gcc", lit "-O2", lit "./.kpatch_a.c.original.s", lit "lib/b.o", lit "src/.kpatch_c.cpp.original.s", lit "-lm",
      lit "-fno-x", lit "-o", lit "prog"]] := by
  have h1 : ArgsOk c76Env.removeArgs := by unfold ArgsOk; decide +kernel
  have h2 : ArgsOk c76Args := by unfold ArgsOk; decide +kernel
  have hs : c76Env.removeArgs.Pairwise fun a b => strcmp a b ≤ 0 := by decide +kernel
  have hk : passedOn c76Env.removeArgs (ccDecide c76Env.toCcEnv c76Args).nulls c76Args =
      [(lit "-O2", 2), (lit "a.c", 5), (lit "lib/b.o", 6), (lit "src/c.cpp", 7), (lit "-lm", 8)] := by
    rw [← passedOn_eq _ h1 hs _ _ h2]; decide +kernel
  have hi : (ccDecide c76Env.toCcEnv c76Args).inputs = [7, 6, 5] := by decide +kernel
  have := (C76_commands_partial c76Env t heap c76Args files _ rfl (lit "prog") (lit "gcc") 0 w rfl (by decide +kernel)
    h1 hs h2 (by decide +kernel) (by decide +kernel) (Or.inl ⟨by decide +kernel, rfl⟩)
    (by rw [hk]; decide +kernel) h).2 rfl
  rw [this, hk, hi]
  decide +kernel

/-- **C76 is violated**: the array of the input files is as long as the user's command line, and is read for
every argument afterwards, also for those appended.  If more arguments are appended than removed, memory behind the
array decides whether they are taken for input files: the two runs here differ in nothing else, and in one the
compiler is not given the argument when it compiles `a.c`. -/
theorem C76_violated_append : ∃ (e : CcEnvB) (args : List CStr) (heap : Nat → Option CStr),
    endRuns (ccMain e exTools (fun _ => none) args (fun _ => none)) = some (0,
      [[lit "gcc", lit "-fx", lit "-fy", lit "-S", lit "a.c", lit "-o", lit "./.kpatch_a.c.original.s"],
       [lit "gcc", lit "./.kpatch_a.c.original.s", lit "-fx", lit "-fy", lit "-o", lit "p"]]) ∧
    endRuns (ccMain e exTools heap args (fun _ => none)) = some (0,
      [[lit "gcc", lit "-fx", lit "-S", lit "a.c", lit "-o", lit "./.kpatch_a.c.original.s"],
       [lit "gcc", lit "./.kpatch_a.c.original.s", lit "-fx", lit "@", lit "-o", lit "p"]]) ∧
    args.length < 3 :=
  ⟨{ c76Env with appendArgs := [lit "-fx", lit "-fy"] }, [lit "-op", lit "a.c"],
    fun k => if k = 3 then some (lit "@") else none, by decide +kernel, by decide +kernel, by decide⟩

/-- **C76 is violated**: the language given with `-x` is not changed for the last command, which then takes the
assembler file for a C file. -/
theorem C76_violated_language :
    endRuns (ccMain c76Env exTools (fun _ => none) [lit "-x", lit "c", lit "a.c", lit "-o", lit "p"] (fun _ => none)) = some (0,
      [[lit "gcc", lit "-x", lit "c", lit "-fno-x", lit "-S", lit "a.c", lit "-o", lit "./.kpatch_a.c.original.s"],
       [lit "gcc", lit "-x", lit "c", lit "./.kpatch_a.c.original.s", lit "-fno-x", lit "-o", lit "p"]]) := by
  decide +kernel

/-- **C76 is violated**: an argument in a word of its own is taken for an input file, unless the option is one
of a few, and is missing when the sources are compiled: `-D` then gets `-fno-x`. -/
theorem C76_violated_separate :
    endRuns (ccMain c76Env exTools (fun _ => none) [lit "-D", lit "X", lit "a.c", lit "-o", lit "p"] (fun _ => none)) = some (0,
      [[lit "gcc", lit "-D", lit "-fno-x", lit "-S", lit "a.c", lit "-o", lit "./.kpatch_a.c.original.s"],
       [lit "gcc", lit "-D", lit "X", lit "./.kpatch_a.c.original.s", lit "-fno-x", lit "-o", lit "p"]]) := by
  decide +kernel

/-- **C76 is violated**: the input `/dev/null` is replaced by an assembler file that nobody has written. -/
theorem C76_violated_devnull :
    ∃ w, ccMain c76Env exTools (fun _ => none) [lit "/dev/null", lit "-o", lit "p"] (fun _ => none) = .exit 0 w ∧
      gccRuns w.log = [[lit "gcc", lit "/dev/.kpatch_null.original.s", lit "-fno-x", lit "-o", lit "p"]] ∧
      w.files (lit "/dev/.kpatch_null.original.s") = none := by
  have h : endRuns (ccMain c76Env exTools (fun _ => none) [lit "/dev/null", lit "-o", lit "p"] (fun _ => none)) = some (0,
      [[lit "gcc", lit "/dev/.kpatch_null.original.s", lit "-fno-x", lit "-o", lit "p"]]) := by decide +kernel
  have h2 : (match ccMain c76Env exTools (fun _ => none) [lit "/dev/null", lit "-o", lit "p"] (fun _ => none) with
      | .exec _ => none
      | .exit _ w => some (w.files (lit "/dev/.kpatch_null.original.s"))) = some none := by decide +kernel
  cases hm : ccMain c76Env exTools (fun _ => none) [lit "/dev/null", lit "-o", lit "p"] (fun _ => none) with
  | exec a => rw [hm] at h; cases h
  | exit s w =>
    rw [hm] at h h2
    simp only [endRuns, Option.some.injEq, Prod.mk.injEq] at h h2
    exact ⟨w, by rw [h.1], h.2, h2⟩

theorem madeForSome_iff (e : CcEnvB) (lang out : CStr) (inputs : List Nat) (k : List (CStr × Nat)) (as : List CStr) (n : CStr) :
    MadeForSome e lang out
      (k.map (fun p => (p.1, if p.2 ∈ inputs then some p.1 else none)) ++ as.map fun a => (a, none)) n →
    ∃ p ∈ k, p.2 ∈ inputs ∧ treatment e.gensrcAsm (getFileType lang p.1) ≠ .asIs ∧ MadeFor e out p.1 n := by
  rintro ⟨x, hx, f, h1, h2, h3⟩
  rcases List.mem_append.1 hx with hx | hx
  · obtain ⟨p, hp, rfl⟩ := List.mem_map.1 hx
    dsimp only at h1
    by_cases hm : p.2 ∈ inputs
    · rw [if_pos hm] at h1
      cases h1
      exact ⟨p, hp, hm, h2, h3⟩
    · rw [if_neg hm] at h1; cases h1
  · obtain ⟨a, -, rfl⟩ := List.mem_map.1 hx
    cases h1

/-- **C76**, the user's files (partial as above, and the tools write only the file given with `-o`).  Whatever
happens, only the output and the files made for inputs that are rewritten are changed. -/
theorem C76_files_kept_partial (e : CcEnvB) (t : CcTools) (heap : Nat → Option CStr) (args : List CStr) (files : CcFiles)
    (st : CcScan) (hst : st = ccDecide e.toCcEnv args) (out lang : CStr) (rc : Nat) (w : CcW)
    (hconf : e.configure = false)
    (hconf' : (args.any fun a => hasSub a (lit "conftest.") || hasSub a (lit "qemu-conf")) = false)
    (hR : ArgsOk e.removeArgs) (hs : e.removeArgs.Pairwise fun a b => strcmp a b ≤ 0) (ha : ArgsOk args)
    (hact : st.action = .buildMultiple) (hout : st.output = some out)
    (hL : (st.idxLang = 0 ∧ lang = e.realgcc) ∨ (lang, st.idxLang) ∈ passedOn e.removeArgs st.nulls args)
    (happ : (passedOn e.removeArgs st.nulls args).length + e.appendArgs.length ≤ args.length)
    (hg : OnlyOutput t.gcc) (ht : OnlyOutput t.gensrc)
    (hrun : ccMain e t heap args files = .exit rc w) (n : CStr) (hn : n ≠ out)
    (hmade : ∀ p ∈ passedOn e.removeArgs st.nulls args, p.2 ∈ st.inputs →
      treatment e.gensrcAsm (getFileType lang p.1) ≠ .asIs → ¬ MadeFor e out p.1 n) : w.files n = files n := by
  have hb := build_run e t heap args files st hst out lang hconf hconf' hR hs ha hact hout hL happ
  rw [hrun] at hb
  dsimp only at hb
  generalize hl : (passedOn e.removeArgs st.nulls args).map (fun p => (p.1, if p.2 ∈ st.inputs then some p.1 else none)) ++
    e.appendArgs.map (fun a => (a, none)) = l at hb
  generalize e.realgcc :: ((passedOn e.removeArgs st.nulls args).filter fun p => decide (p.2 ∉ st.inputs)).map Prod.fst ++
    e.appendArgs = others at hb
  generalize hr : ((buildInputs e t others lang out l ⟨files, []⟩).andThen
    fun r w => runGcc t ([e.realgcc] ++ r ++ [dashO, out]) w) = r at hb
  have htouch : Touches (fun n => n = out ∨ ∃ p ∈ passedOn e.removeArgs st.nulls args, p.2 ∈ st.inputs ∧
      treatment e.gensrcAsm (getFileType lang p.1) ≠ .asIs ∧ MadeFor e out p.1 n) ⟨files, []⟩ r := by
    rw [← hr]
    refine Touches.andThen ?_ fun r w => touches_gcc hg _ _ out (Or.inl rfl) w
    refine (touches_buildInputs e hg ht others lang out l ⟨files, []⟩).mono fun n hn => Or.inr ?_
    rw [← hl] at hn
    exact madeForSome_iff e lang out _ _ _ n hn
  have hnot : ¬ (n = out ∨ ∃ p ∈ passedOn e.removeArgs st.nulls args, p.2 ∈ st.inputs ∧
      treatment e.gensrcAsm (getFileType lang p.1) ≠ .asIs ∧ MadeFor e out p.1 n) := by
    rintro (h | ⟨p, h1, h2, h3, h4⟩)
    · exact hn h
    · exact hmade p h1 h2 h3 h4
  cases r with
  | ok a w' =>
    simp only [CcRes.end_, CcEnd.exit.injEq] at hb
    rw [hb.2]
    exact htouch n hnot
  | stop s w' =>
    simp only [CcRes.end_, CcEnd.exit.injEq] at hb
    rw [hb.2]
    exact htouch n hnot

/-- **C76**, what is linked (partial as above).  For every build that succeeds and every input `p` that is compiled, if the
files made for it are not made for another input too (see `C76_names`) and are not the output: in the `original` stage
the assembler file given to the last command holds what the compiler wrote for this input.  In the `patched` stage it
is the patch made from two files: the assembler file of the `original` stage, if there is one (otherwise
`/dev/null`), and what the compiler wrote for this input, both passed through the filter.  All this is done on states
of the files in which everything not made by the wrapper is as in the beginning. -/
theorem C76_contents_partial (e : CcEnvB) (t : CcTools) (heap : Nat → Option CStr) (args : List CStr) (files : CcFiles)
    (st : CcScan) (hst : st = ccDecide e.toCcEnv args) (out lang : CStr) (w : CcW)
    (hconf : e.configure = false)
    (hconf' : (args.any fun a => hasSub a (lit "conftest.") || hasSub a (lit "qemu-conf")) = false)
    (hR : ArgsOk e.removeArgs) (hs : e.removeArgs.Pairwise fun a b => strcmp a b ≤ 0) (ha : ArgsOk args)
    (hact : st.action = .buildMultiple) (hout : st.output = some out)
    (hL : (st.idxLang = 0 ∧ lang = e.realgcc) ∨ (lang, st.idxLang) ∈ passedOn e.removeArgs st.nulls args)
    (happ : (passedOn e.removeArgs st.nulls args).length + e.appendArgs.length ≤ args.length)
    (hg : OnlyOutput t.gcc) (ht : OnlyOutput t.gensrc)
    (hrun : ccMain e t heap args files = .exit 0 w) (p : CStr × Nat)
    (hp : p ∈ passedOn e.removeArgs st.nulls args) (hpi : p.2 ∈ st.inputs) (opt : CStr)
    (htr : treatment e.gensrcAsm (getFileType lang p.1) = .compiled opt)
    (hapart : ∀ q ∈ passedOn e.removeArgs st.nulls args, q ≠ p → q.2 ∈ st.inputs →
      treatment e.gensrcAsm (getFileType lang q.1) ≠ .asIs → ∀ n, MadeFor e out p.1 n → ¬ MadeFor e out q.1 n)
    (hpo : ¬ MadeFor e out p.1 out) :
    let kept := passedOn e.removeArgs st.nulls args
    let others := e.realgcc :: (kept.filter fun p => p.2 ∉ st.inputs).map Prod.fst ++ e.appendArgs
    let user := fun fs : CcFiles => ∀ n, (∀ q ∈ kept, q.2 ∈ st.inputs →
      treatment e.gensrcAsm (getFileType lang q.1) ≠ .asIs → ¬ MadeFor e out q.1 n) → fs n = files n
    let asm := asmFile e out p.1
    let orig := asmStem e out p.1 ++ lit ".original.s"
    ∃ fs : CcFiles, user fs ∧
      if e.patched then
        ∃ fs1 fs2 fs3 : CcFiles, user fs1 ∧ user fs2 ∧ user fs3 ∧
          fs1 asm = (t.gcc (others ++ [opt, p.1, lit "-o", asm]) fs).2 asm ∧ fs2 orig = files orig ∧
          fs3 asm = filtered e t fs1 asm ∧ (files orig ≠ none → fs3 orig = filtered e t fs2 orig) ∧
          w.files (linkedFile e out p.1) =
            patchOf e t fs3 (if files orig = none then lit "/dev/null" else orig) asm (asmStem e out p.1 ++ lit ".s.tmp")
      else w.files (linkedFile e out p.1) = (t.gcc (others ++ [opt, p.1, lit "-o", asm]) fs).2 asm := by
  intro kept others user asm orig
  have hb := build_run e t heap args files st hst out lang hconf hconf' hR hs ha hact hout hL happ
  rw [hrun] at hb
  have hnd : kept.Nodup := by
    have h1 : ((positions args).map Prod.snd).Nodup := by
      unfold positions
      rw [List.zipIdx_map_snd]
      exact List.nodup_range'
    exact (List.Pairwise.of_map Prod.snd (fun a b h c => h (c ▸ rfl)) h1 : (positions args).Nodup).sublist List.filter_sublist
  obtain ⟨k1, k2, hk⟩ := List.append_of_mem hp
  have hk' : kept = k1 ++ p :: k2 := hk
  have hsplit : kept.map (fun p => (p.1, if p.2 ∈ st.inputs then some p.1 else none)) ++ e.appendArgs.map (fun a => (a, none)) =
      k1.map (fun p => (p.1, if p.2 ∈ st.inputs then some p.1 else none)) ++ (p.1, some p.1) ::
        (k2.map (fun p => (p.1, if p.2 ∈ st.inputs then some p.1 else none)) ++ e.appendArgs.map (fun a => (a, none))) := by
    rw [hk', List.map_append, List.map_cons, if_pos hpi]
    simp
  have hsplit' : (k1 ++ p :: k2).map (fun p => (p.1, if p.2 ∈ st.inputs then some p.1 else none)) = 
      kept.map (fun p => (p.1, if p.2 ∈ st.inputs then some p.1 else none)) := by rw [hk']
  have hb' : CcEnd.exit 0 w = ((buildInputs e t others lang out
      (kept.map (fun p => (p.1, if p.2 ∈ st.inputs then some p.1 else none)) ++ e.appendArgs.map fun a => (a, none))
      ⟨files, []⟩).andThen fun r w => runGcc t ([e.realgcc] ++ r ++ [dashO, out]) w).end_ := hb
  rw [hsplit] at hb'
  cases hB : buildInputs e t others lang out
      (k1.map (fun p => (p.1, if p.2 ∈ st.inputs then some p.1 else none)) ++ (p.1, some p.1) ::
        (k2.map (fun p => (p.1, if p.2 ∈ st.inputs then some p.1 else none)) ++ e.appendArgs.map (fun a => (a, none))))
      ⟨files, []⟩ with
  | stop s x =>
    have := stepOk_buildInputs e t others lang out
      (k1.map (fun p => (p.1, if p.2 ∈ st.inputs then some p.1 else none)) ++ (p.1, some p.1) ::
        (k2.map (fun p => (p.1, if p.2 ∈ st.inputs then some p.1 else none)) ++ e.appendArgs.map (fun a => (a, none))))
      ⟨files, []⟩
    rw [hB] at this
    rw [hB] at hb'
    simp only [CcRes.andThen, CcRes.end_, CcEnd.exit.injEq] at hb'
    exact absurd hb'.1.symm this.1
  | ok r w4 =>
    rw [hB] at hb'
    simp only [CcRes.andThen] at hb'
    cases hl : runGcc t ([e.realgcc] ++ r ++ [dashO, out]) w4 with
    | stop s x =>
      have := stepOk_gcc t ([e.realgcc] ++ r ++ [dashO, out]) w4
      rw [hl] at this hb'
      simp only [CcRes.end_, CcEnd.exit.injEq] at hb'
      exact absurd hb'.1.symm this.1
    | ok u w5 =>
      rw [hl] at hb'
      simp only [CcRes.end_, CcEnd.exit.injEq, true_and] at hb'
      subst hb'
      obtain ⟨w1, w2, r1, r2, b, j1, j2, j3⟩ := buildInputs_at e t others lang out _ _ _ _ _ _ _ hB
      -- what the parts change
      have t1 := touches_buildInputs e hg ht others lang out
        (k1.map (fun p => (p.1, if p.2 ∈ st.inputs then some p.1 else none))) ⟨files, []⟩
      rw [j1] at t1
      have t3 := touches_buildInputs e hg ht others lang out
        (k2.map (fun p => (p.1, if p.2 ∈ st.inputs then some p.1 else none)) ++ e.appendArgs.map (fun a => (a, none))) w2
      rw [j3] at t3
      have t4 := touches_gcc hg (fun n => n = out) ([e.realgcc] ++ r) out rfl w4
      have t4' : Touches (fun n => n = out) w4 (runGcc t ([e.realgcc] ++ r ++ [dashO, out]) w4) := t4
      rw [hl] at t4'
      have hq1 : ∀ q ∈ k1, q ∈ kept ∧ q ≠ p := by
        intro q hq
        refine ⟨by rw [hk']; exact List.mem_append_left _ hq, ?_⟩
        rintro rfl
        rw [hk'] at hnd
        exact (List.nodup_append.1 hnd).2.2 q hq q List.mem_cons_self rfl
      have hq2 : ∀ q ∈ k2, q ∈ kept ∧ q ≠ p := by
        intro q hq
        refine ⟨by rw [hk']; exact List.mem_append_right _ (List.mem_cons_of_mem _ hq), ?_⟩
        rintro rfl
        rw [hk'] at hnd
        exact (List.nodup_cons.1 (List.nodup_append.1 hnd).2.1).1 hq
      have u1 : ∀ n, (∀ q ∈ kept, q ≠ p → q.2 ∈ st.inputs →
          treatment e.gensrcAsm (getFileType lang q.1) ≠ .asIs → ¬ MadeFor e out q.1 n) → w1.files n = files n := by
        intro n hn
        refine t1 n fun hm => ?_
        obtain ⟨q, m1, m2, m3, m4⟩ := madeForSome_iff e lang out st.inputs k1 [] n (by simpa using hm)
        exact hn q (hq1 q m1).1 (hq1 q m1).2 m2 m3 m4
      have u3 : ∀ n, (∀ q ∈ kept, q ≠ p → q.2 ∈ st.inputs →
          treatment e.gensrcAsm (getFileType lang q.1) ≠ .asIs → ¬ MadeFor e out q.1 n) → w4.files n = w2.files n := by
        intro n hn
        refine t3 n fun hm => ?_
        obtain ⟨q, m1, m2, m3, m4⟩ := madeForSome_iff e lang out st.inputs k2 e.appendArgs n hm
        exact hn q (hq2 q m1).1 (hq2 q m1).2 m2 m3 m4
      have hown : ∀ n, MadeFor e out p.1 n → w1.files n = files n ∧ w.files n = w2.files n := by
        intro n hn
        refine ⟨u1 n fun q a1 a2 a3 a4 => hapart q a1 a2 a3 a4 n hn, ?_⟩
        have h5 : w.files n = w4.files n := t4' n fun h : n = out => hpo (h ▸ hn)
        rw [h5]
        exact u3 n fun q a1 a2 a3 a4 => hapart q a1 a2 a3 a4 n hn
      have huser : user w1.files := by
        intro n hn
        exact u1 n fun q a1 _ a3 a4 => hn q a1 a3 a4
      refine ⟨w1.files, huser, ?_⟩
      -- the input itself
      have hbi : (runGcc t (others ++ [opt, p.1, dashO, asm]) w1).andThen
          (fun _ w => stageStep e t asm w) = .ok b w2 := by
        rw [← j2]
        unfold buildInput
        dsimp only
        rw [asmName_stem]
        cases hty : getFileType lang p.1 with
        | obj => rw [hty] at htr; cases htr
        | devNull => rw [hty] at htr; cases htr
        | asm => rw [hty] at htr; dsimp only [treatment] at htr; split at htr <;> cases htr
        | asmCpp =>
          rw [hty] at htr
          dsimp only [treatment] at htr
          split at htr
          · next hb => cases htr; simp only [hb]; rfl
          · cases htr
        | src =>
          rw [hty] at htr
          cases htr
          rfl
      cases hgc : runGcc t (others ++ [opt, p.1, dashO, asm]) w1 with
      | stop s x => rw [hgc] at hbi; cases hbi
      | ok u0 w0 =>
        rw [hgc] at hbi
        simp only [CcRes.andThen] at hbi
        have hw0 := runGcc_ok hgc
        have hwn : ∀ n, n ≠ asm → w0.files n = w1.files n := by
          intro n hn
          rw [hw0]
          have := hg (others ++ [opt, p.1]) asm w1.files n hn
          simpa [dashO] using this
        have hasm : w0.files asm = (t.gcc (others ++ [opt, p.1, lit "-o", asm]) w1.files).2 asm := by rw [hw0]; rfl
        have hmadeUser : ∀ fs : CcFiles, (∀ n, ¬ MadeFor e out p.1 n → fs n = w0.files n) → user fs := by
          intro fs hfs n hn
          have hnp : ¬ MadeFor e out p.1 n := hn p hp hpi (by rw [htr]; simp)
          rw [hfs n hnp, hwn n (fun h => hnp (h ▸ made_asm e out p.1))]
          exact huser n hn
        by_cases hpt : e.patched = true
        · rw [if_pos hpt]
          have hst' : asm = asmStem e out p.1 ++ lit ".patched.s" := by
            show asmFile e out p.1 = _
            unfold asmFile; rw [if_pos hpt]
          have hli : linkedFile e out p.1 = asmStem e out p.1 ++ lit ".s" := by
            unfold linkedFile; rw [if_pos hpt]
          unfold stageStep at hbi
          rw [if_pos hpt, hst'] at hbi
          obtain ⟨fs1, fs2, g1, g2, g3, g4, g5⟩ := generate_ok ht hbi
          have horig : w0.files orig = files orig := by
            have hm : MadeFor e out p.1 orig := ⟨_, by simp [madeSuffixes], rfl⟩
            rw [hwn orig ?_]
            · exact (hown orig hm).1
            · rw [hst']
              intro h
              exact absurd (List.append_cancel_left h) (by decide +kernel)
          refine ⟨fs1, w0.files, fs2, hmadeUser _ (fun n hn => (g1 n hn).1), hmadeUser _ (fun _ _ => rfl),
            hmadeUser _ (fun n hn => (g1 n hn).2), ?_, horig, ?_, ?_, ?_⟩
          · rw [← hasm, hst']; exact g2
          · rw [hst']; exact g3
          · intro hz
            exact g4 (by rw [← horig] at hz; exact hz)
          · rw [(hown _ (made_linked e out p.1)).2, hli, hst', ← horig]
            exact g5
        · rw [if_neg hpt]
          have hli : linkedFile e out p.1 = asm := by
            show _ = asmFile e out p.1
            unfold linkedFile asmFile; rw [if_neg hpt, if_neg hpt]
          unfold stageStep at hbi
          rw [if_neg hpt] at hbi
          simp only [CcRes.ok.injEq] at hbi
          rw [(hown _ (made_linked e out p.1)).2, hli, ← hbi.2]
          exact hasm

theorem baseName_last {f : CStr} {c : Byte} (h : f.getLast? = some c) (hc : c ≠ 47#8) : (baseName f).getLast? = some c := by
  rw [List.getLast?_eq_head?_reverse] at h ⊢
  unfold baseName
  rw [List.reverse_reverse]
  cases hr : f.reverse with
  | nil => rw [hr] at h; cases h
  | cons x l =>
    rw [hr] at h
    cases h
    rw [List.takeWhile_cons, if_pos (by simpa using hc)]
    rfl

theorem ext_last {f x : CStr} (h : extOf f = some x) (hx : x ≠ []) : f.getLast? = x.getLast? := by
  unfold extOf at h
  split at h
  · cases h
    rw [List.getLast?_eq_head?_reverse, List.getLast?_eq_head?_reverse, List.reverse_reverse]
    cases hr : f.reverse with
    | nil => rw [hr] at hx; exact absurd rfl hx
    | cons c l =>
      rw [List.takeWhile_cons]
      split
      · rfl
      · next hc =>
        rw [hr, List.takeWhile_cons, if_neg hc] at hx
        exact absurd rfl hx
  · cases h

/-- The last character of the name of a file that is rewritten. -/
theorem rewritten_last (gensrcAsm : Bool) (lang f : CStr) (hf : f ≠ lit "-") (hn : f ≠ lit "/dev/null")
    (h0 : 0#8 ∉ f) (h : treatment gensrcAsm (getFileType lang f) ≠ .asIs) :
    ∃ c, f.getLast? = some c ∧ c ∈ lit "spcx+CPSx" := by
  have hl : lit "-" = [45#8] := by decide +kernel
  rw [hl] at hf
  unfold getFileType at h
  rw [if_neg hf, if_neg hn] at h
  cases hx : extOf f with
  | none => rw [hx] at h; exact absurd rfl h
  | some x =>
    rw [hx] at h
    dsimp only at h
    split at h
    · next h1 =>
      rw [ext_last hx (by rw [h1]; decide +kernel), h1]
      exact ⟨115#8, by decide +kernel, by decide +kernel⟩
    · split at h
      · next _ h1 =>
        obtain ⟨hS, h1⟩ := h1
        have hz : 0#8 ∉ x := by
          unfold extOf at hx
          split at hx
          · cases hx
            intro hm
            exact h0 (List.mem_reverse.1 ((List.takeWhile_sublist _).subset (List.mem_reverse.1 hm)))
          · cases hx
        match x, hx, hS, h1, hz with
        | [], _, hS, _, _ => exact absurd hS (by decide)
        | [a], hx, hS, _, _ =>
          rw [ext_last hx (by simp)]
          exact ⟨a, rfl, by rw [show a = 83#8 from hS]; decide +kernel⟩
        | [a, b], _, _, h1, hz =>
          rcases h1 with h1 | ⟨h1, -⟩
          · exact absurd (show 0#8 ∈ [a, b] by rw [show b = 0#8 from h1]; simp) hz
          · exact absurd (show (0#8 : Byte) = 120#8 from h1) (by decide)
        | [a, b, c], hx, _, h1, hz =>
          rcases h1 with h1 | ⟨h1, -⟩
          · exact absurd (show 0#8 ∈ [a, b, c] by rw [show b = 0#8 from h1]; simp) hz
          · rw [ext_last hx (by simp)]
            exact ⟨c, rfl, by rw [show c = 120#8 from h1]; decide +kernel⟩
        | a :: b :: c :: d :: l, _, _, h1, hz =>
          rcases h1 with h1 | ⟨-, h1⟩
          · exact absurd (show 0#8 ∈ a :: b :: c :: d :: l by rw [show b = 0#8 from h1]; simp) hz
          · exact absurd (show 0#8 ∈ a :: b :: c :: d :: l by rw [show d = 0#8 from h1]; simp) hz
      · split at h
        · next h1 =>
          have : ∀ y ∈ [lit "c", lit "cp", lit "cpp", lit "cxx", lit "c++", lit "C", lit "CPP"], y ≠ [] ∧
              (y.getLast?.map fun c => decide (c ∈ lit "spcx+CPSx")) = some true := by decide +kernel
          obtain ⟨k1, k2⟩ := this x h1
          rw [ext_last hx k1]
          cases hg : x.getLast? with
          | none => rw [hg] at k2; cases k2
          | some c => rw [hg] at k2; exact ⟨c, rfl, by simpa using k2⟩
        · exact absurd rfl h

theorem noSlash_baseName (f : CStr) : 47#8 ∉ baseName f := by
  intro h
  have := List.all_eq_true.1 List.all_takeWhile _ (List.mem_reverse.1 h)
  simp at this

/-- Two texts with the same part that has a slash, followed by names without one. -/
theorem slash_split {A B X b1 b2 : CStr} (hX : 47#8 ∈ X) (h1 : 47#8 ∉ b1) (h2 : 47#8 ∉ b2)
    (h : A ++ X ++ b1 = B ++ X ++ b2) : A = B ∧ b1 = b2 := by
  have key : ∀ {A B X b1 b2 : CStr}, 47#8 ∈ X → 47#8 ∉ b1 → 47#8 ∉ b2 → A ++ X ++ b1 = B ++ X ++ b2 →
      b2.length ≤ b1.length := by
    intro A B X b1 b2 hX h1 h2 h
    -- the distance of the last slash from the end
    have hd : ∀ Y b : CStr, 47#8 ∉ b → ((Y ++ X ++ b).reverse.takeWhile (· ≠ 47#8)).length =
        b.length + (X.reverse.takeWhile (· ≠ 47#8)).length := by
      intro Y b hb
      rw [List.reverse_append, List.takeWhile_append_of_pos, List.reverse_append, List.length_append, List.length_reverse]
      · congr 1
        have : (X.reverse ++ Y.reverse).takeWhile (fun c => decide (c ≠ 47#8)) = X.reverse.takeWhile (fun c => decide (c ≠ 47#8)) := by
          have hx : 47#8 ∈ X.reverse := List.mem_reverse.2 hX
          generalize X.reverse = R at hx ⊢
          induction R with
          | nil => cases hx
          | cons a l ih =>
            rw [List.cons_append, List.takeWhile_cons, List.takeWhile_cons]
            split
            · next hc =>
              rcases List.mem_cons.1 hx with hx | hx
              · rw [← hx] at hc; simp at hc
              · rw [ih hx]
            · rfl
        rw [this]
      · intro c hc
        have : c ≠ 47#8 := fun hh => hb (hh ▸ List.mem_reverse.1 hc)
        simpa using this
    have e1 := hd A b1 h1
    have e2 := hd B b2 h2
    rw [h] at e1
    omega
  have hlen : b1.length = b2.length := Nat.le_antisymm (key hX h2 h1 h.symm) (key hX h1 h2 h)
  obtain ⟨k1, k2⟩ := List.append_inj' h hlen
  exact ⟨List.append_cancel_right k1, k2⟩

theorem stem_end (e : CcEnvB) (lang out f : CStr) (hf : f ≠ lit "-") (zf : 0#8 ∉ f)
    (tf : treatment e.gensrcAsm (getFileType lang f) ≠ .asIs) :
    ∀ x ∈ [lit ".original", lit ".patched"], ∀ y, asmStem e out f ≠ y ++ x := by
  intro x hx y h
  have hst : ∃ Z, asmStem e out f = Z ++ baseName f := by
    unfold asmStem
    dsimp only
    rw [if_neg hf]
    exact ⟨_, rfl⟩
  obtain ⟨Z, hZ⟩ := hst
  by_cases hn : f = lit "/dev/null"
  · have h1 : ∀ x ∈ [lit ".original", lit ".patched"], ∃ x1 x2, x = x1 ++ x2 ∧ x2.length = 4 ∧ x2 ≠ baseName (lit "/dev/null") := by
      intro x hx
      rcases List.mem_cons.1 hx with rfl | hx
      · exact ⟨lit ".orig", lit "inal", by decide +kernel, by decide +kernel, by decide +kernel⟩
      · rcases List.mem_cons.1 hx with rfl | hx
        · exact ⟨lit ".pat", lit "ched", by decide +kernel, by decide +kernel, by decide +kernel⟩
        · cases hx
    obtain ⟨x1, x2, rfl, h2, h3⟩ := h1 x hx
    rw [hZ, hn, ← List.append_assoc] at h
    have := List.append_inj_right' h (by rw [h2]; decide +kernel)
    exact h3 this.symm
  · obtain ⟨c, hc, hm⟩ := rewritten_last e.gensrcAsm lang f hf hn zf tf
    have hc47 : c ≠ 47#8 := by rintro rfl; exact absurd hm (by decide +kernel)
    have hb := baseName_last hc hc47
    have h1 : (asmStem e out f).getLast? = some c := by rw [hZ, List.getLast?_append, hb]; rfl
    have h2 : ∀ x ∈ [lit ".original", lit ".patched"], x.getLast? = some 108#8 ∨ x.getLast? = some 100#8 := by decide +kernel
    rw [h, List.getLast?_append] at h1
    rcases h2 x hx with h2 | h2 <;> rw [h2] at h1 <;> cases h1 <;> exact absurd hm (by decide +kernel)

/-- **C76**, the names: two inputs of which both are rewritten, that are not the standard input and that are in
different directories or have different names, have no file in common among those made for them. -/
theorem C76_names (e : CcEnvB) (lang out f g : CStr) (hf : f ≠ lit "-") (hg : g ≠ lit "-") (zf : 0#8 ∉ f) (zg : 0#8 ∉ g)
    (tf : treatment e.gensrcAsm (getFileType lang f) ≠ .asIs) (tg : treatment e.gensrcAsm (getFileType lang g) ≠ .asIs)
    (hne : baseName f ≠ baseName g ∨ dirOf e f ≠ dirOf e g) (n : CStr) (h1 : MadeFor e out f n) : ¬ MadeFor e out g n := by
  intro h2
  refine made_apart ?_ ?_ ?_ n h1 h2
  · intro h
    unfold asmStem at h
    dsimp only at h
    rw [if_neg hf, if_neg hg] at h
    have hX : 47#8 ∈ lit "/" ++ e.pfx := List.mem_append_left _ (by decide +kernel)
    unfold dirOf at hne
    dsimp only at hne
    cases ha : e.asmDir with
    | none =>
      rw [ha] at h hne
      dsimp only at h hne
      rw [List.append_assoc _ (lit "/"), List.append_assoc _ (lit "/")] at h
      obtain ⟨k1, k2⟩ := slash_split hX (noSlash_baseName f) (noSlash_baseName g) h
      exact hne.elim (fun h => h k2) (fun h => h k1)
    | some d =>
      rw [ha] at h hne
      dsimp only at h hne
      rw [List.append_assoc _ (lit "/"), List.append_assoc _ (lit "/")] at h
      obtain ⟨k1, k2⟩ := slash_split hX (noSlash_baseName f) (noSlash_baseName g) h
      exact hne.elim (fun h => h k2) (fun h => h (List.append_cancel_left k1))
  · exact fun x hx y => stem_end e lang out f hf zf tf x hx y
  · exact fun x hx y => stem_end e lang out g hg zg tg x hx y

example (out : CStr) (n : CStr) (h : MadeFor c76Env out (lit "a.c") n) : ¬ MadeFor c76Env out (lit "src/c.cpp") n :=
  C76_names c76Env (lit "gcc") out _ _ (by decide +kernel) (by decide +kernel) (by decide +kernel) (by decide +kernel)
    (by decide +kernel) (by decide +kernel) (Or.inl (by decide +kernel)) n h

theorem exTools_only : OnlyOutput exTools.gcc ∧ OnlyOutput exTools.gensrc := by
  constructor <;>
  · intro argv o fs n hn
    have : (argv ++ [lit "-o", o]).getLastD [] = o := by
      rw [show argv ++ [lit "-o", o] = (argv ++ [lit "-o"]) ++ [o] by simp, List.getLastD_concat]
    simp only [exTools, this, if_neg hn]

/-- In the `patched` stage, `exTools` and a file of the `original` stage beside `a.c`: the build succeeds. -/
example : endRuns (ccMain { c76Env with patched := true } exTools (fun _ => none) c76Args
    (fun n => if n = lit "./.kpatch_a.c.original.s" then some [7#8] else none)) = some (0,
    [[lit "gcc", lit "-O2", lit "-lm", lit "-fno-x", lit "-S", lit "a.c", lit "-o", lit "./.kpatch_a.c.patched.s"],
     [lit "gcc", lit "-O2", lit "-lm", lit "-fno-x", lit "-S", lit "src/c.cpp", lit "-o", lit "src/.kpatch_c.cpp.patched.s"],
     [lit "gcc", lit "-O2", lit "./.kpatch_a.c.s", lit "lib/b.o", lit "src/.kpatch_c.cpp.s", lit "-lm",
      lit "-fno-x", lit "-o", lit "prog"]]) := by
  decide +kernel

/-- What `C76_contents_partial` says of `a.c` in the `original` stage, for every compiler that writes only its output. -/
example (t : CcTools) (hg : OnlyOutput t.gcc) (ht : OnlyOutput t.gensrc) (heap : Nat → Option CStr) (files : CcFiles) (w : CcW)
    (h : ccMain c76Env t heap c76Args files = .exit 0 w) : ∃ fs : CcFiles, fs (lit "a.c") = files (lit "a.c") ∧
    w.files (lit "./.kpatch_a.c.original.s") = (t.gcc [lit "gcc", lit "-O2", lit "-lm", lit "-fno-x", lit "-S", lit "a.c",
      lit "-o", lit "./.kpatch_a.c.original.s"] fs).2 (lit "./.kpatch_a.c.original.s") := by
  have h1 : ArgsOk c76Env.removeArgs := by unfold ArgsOk; decide +kernel
  have h2 : ArgsOk c76Args := by unfold ArgsOk; decide +kernel
  have hs : c76Env.removeArgs.Pairwise fun a b => strcmp a b ≤ 0 := by decide +kernel
  have hk : passedOn c76Env.removeArgs (ccDecide c76Env.toCcEnv c76Args).nulls c76Args =
      [(lit "-O2", 2), (lit "a.c", 5), (lit "lib/b.o", 6), (lit "src/c.cpp", 7), (lit "-lm", 8)] := by
    rw [← passedOn_eq _ h1 hs _ _ h2]; decide +kernel
  have hi : (ccDecide c76Env.toCcEnv c76Args).inputs = [7, 6, 5] := by decide +kernel
  obtain ⟨fs, hu, hc⟩ := C76_contents_partial c76Env t heap c76Args files _ rfl (lit "prog") (lit "gcc") w rfl (by decide +kernel)
    h1 hs h2 (by decide +kernel) (by decide +kernel) (Or.inl ⟨by decide +kernel, rfl⟩)
    (by rw [hk]; decide +kernel) hg ht h (lit "a.c", 5) (by rw [hk]; simp) (by rw [hi]; simp) (lit "-S") (by decide +kernel)
    (by
      intro q hq hne _ htq n hn
      rw [hk] at hq
      refine C76_names c76Env (lit "gcc") _ _ q.1 (by decide +kernel) ?_ (by decide +kernel) ?_ (by decide +kernel) htq ?_ n hn
      · revert q; decide +kernel
      · revert q; decide +kernel
      · revert q; decide +kernel)
    (by unfold MadeFor; decide +kernel)
  refine ⟨fs, hu _ ?_, ?_⟩
  · rw [hk]; unfold MadeFor; decide +kernel
  · rw [hk, hi] at hc
    have e1 : asmFile c76Env (lit "prog") (lit "a.c") = lit "./.kpatch_a.c.original.s" := by decide +kernel
    have e2 : linkedFile c76Env (lit "prog") (lit "a.c") = lit "./.kpatch_a.c.original.s" := by decide +kernel
    dsimp only at hc
    rw [e1, e2, if_neg (by decide)] at hc
    exact hc

/-! ### C77 -/

/-- **C77**, a failing tool is reported (partial: it must have called `exit`, see `C77_violated_killed`).  For every
command line, and whatever the tools do: if a tool run by the wrapper exits with a status other than 0, that is
the exit status of the wrapper, and nothing is run after it. -/
theorem C77_failure_partial (e : CcEnvB) (t : CcTools) (heap : Nat → Option CStr) (args : List CStr) (files : CcFiles)
    (rc : Nat) (w : CcW) (h : ccMain e t heap args files = .exit rc w) (call : CcCall) (c : Nat) (hc : 0 < c) (hc' : c < 256)
    (hm : (call, exitedWith c) ∈ w.log) : rc = c ∧ w.log.getLast? = some (call, exitedWith c) := by
  obtain ⟨r, h1, h2⟩ := main_step e t heap args files rc w h
  have hw : wexit (exitedWith c) = c := by unfold wexit exitedWith; omega
  cases r with
  | ok a w' =>
    simp only [CcRes.end_, CcEnd.exit.injEq] at h2
    obtain ⟨rfl, rfl⟩ := h2
    obtain ⟨l, e1, e2⟩ := h1
    simp only [List.nil_append] at e1
    rw [e1] at hm
    have := e2 _ hm
    dsimp only at this
    omega
  | stop s w' =>
    simp only [CcRes.end_, CcEnd.exit.injEq] at h2
    obtain ⟨rfl, rfl⟩ := h2
    obtain ⟨-, l, e1, e2⟩ := h1
    simp only [List.nil_append] at e1
    rw [e1] at hm ⊢
    rcases e2 with e2 | ⟨l', x, rfl, e3, e4⟩
    · have := e2 _ hm
      dsimp only at this
      omega
    · rcases List.mem_append.1 hm with hm | hm
      · have := e3 _ hm
        dsimp only at this
        omega
      · have hx : (call, exitedWith c) = x := by simpa using hm
        subst hx
        dsimp only at e4
        exact ⟨by omega, by simp⟩

/-- **C77**, success means success (partial for the same reason).  If the wrapper exits with 0, no tool it ran has
exited with another status. -/
theorem C77_success_partial (e : CcEnvB) (t : CcTools) (heap : Nat → Option CStr) (args : List CStr) (files : CcFiles)
    (w : CcW) (h : ccMain e t heap args files = .exit 0 w) (call : CcCall) (c : Nat) (hc : 0 < c) (hc' : c < 256) :
    (call, exitedWith c) ∉ w.log := by
  intro hm
  have := (C77_failure_partial e t heap args files 0 w h call c hc hc' hm).1
  omega

/-- A compiler that fails for the second file. -/
def exFailing : CcTools :=
  { exTools with gcc := fun argv fs => if lit "src/c.cpp" ∈ argv then (exitedWith 4, fs) else exTools.gcc argv fs }

example : endRuns (ccMain c76Env exFailing (fun _ => none) c76Args (fun _ => none)) = some (4,
    [[lit "gcc", lit "-O2", lit "-lm", lit "-fno-x", lit "-S", lit "a.c", lit "-o", lit "./.kpatch_a.c.original.s"],
     [lit "gcc", lit "-O2", lit "-lm", lit "-fno-x", lit "-S", lit "src/c.cpp", lit "-o",
      lit "src/.kpatch_c.cpp.original.s"]]) := by
  decide +kernel

/-- A compiler killed when it is given the assembler file. -/
def exKilled : CcTools :=
  { exTools with gcc := fun argv fs => if lit "-c" ∈ argv then (killedBy 9, fs) else exTools.gcc argv fs }

/-- **C77 is violated**: a compiler that is killed counts as successful.  The wrapper exits with 0 although there is no
output. -/
theorem C77_violated_killed :
    ∃ w, ccMain c76Env exKilled (fun _ => none) [lit "-c", lit "a.c", lit "-o", lit "a.o"] (fun _ => none) = .exit 0 w ∧
      (∃ argv, (CcCall.gcc argv, killedBy 9) ∈ w.log) ∧ w.files (lit "a.o") = none := by
  have h : (match ccMain c76Env exKilled (fun _ => none) [lit "-c", lit "a.c", lit "-o", lit "a.o"] (fun _ => none) with
      | .exec _ => none
      | .exit s w => some (s, w.log, w.files (lit "a.o"))) = some (0,
        [(CcCall.gcc [lit "gcc", lit "-S", lit "a.c", lit "-fno-x", lit "-o", lit "./.kpatch_a.o.original.s"], 0),
         (CcCall.gcc [lit "gcc", lit "-c", lit "./.kpatch_a.o.original.s", lit "-fno-x", lit "-o", lit "a.o"], 9)], none) := by
    decide +kernel
  cases hm : ccMain c76Env exKilled (fun _ => none) [lit "-c", lit "a.c", lit "-o", lit "a.o"] (fun _ => none) with
  | exec a => rw [hm] at h; cases h
  | exit s w =>
    rw [hm] at h
    simp only [Option.some.injEq, Prod.mk.injEq] at h
    obtain ⟨rfl, h2, h3⟩ := h
    exact ⟨w, rfl, ⟨_, by rw [h2]; exact List.mem_cons_of_mem _ (List.mem_singleton.2 rfl)⟩, h3⟩

end Verif
