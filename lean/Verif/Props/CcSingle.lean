import Verif.Props.CcBuild
/-
C78: a compilation of a single file, and the commands that are passed through.
-/
namespace Verif

/-- The input of a compilation of a single file is passed on. -/
theorem input_kept (e : CcEnv) (args : List CStr) (ha : ArgsOk args) (st : CcScan) (hst : st = ccDecide e args)
    (hin : st.idxInput ≠ 0) : ∃ a, argPos args st.idxInput = some a ∧
      (a, st.idxInput) ∈ passedOn e.removeArgs st.nulls args := by
  obtain ⟨-, -, r3, r4, r5, -⟩ := C52_roles e args st hst
  obtain ⟨a, h1, h2⟩ := r3 hin
  refine ⟨a, h1, ?_⟩
  unfold passedOn positions
  rw [List.mem_filter]
  unfold argPos at h1
  rw [if_neg hin] at h1
  refine ⟨?_, ?_⟩
  · rw [List.mk_mem_zipIdx_iff_le_and_getElem?_sub]
    exact ⟨by omega, h1⟩
  · simp only [decide_eq_true_eq]
    refine ⟨(r4 hin).1, ?_⟩
    rintro ⟨h3, -⟩
    exact (isOption_iff a (ha a (List.mem_of_getElem? h1))).1 h3 h2

/-- The arguments after `modify_args`, with others in the place of some. -/
theorem single_argv (e : CcEnvB) (args : List CStr) (out as2 : CStr) (st : CcScan) (hst : st = ccDecide e.toCcEnv args)
    (hR : ArgsOk e.removeArgs) (hs : e.removeArgs.Pairwise fun a b => strcmp a b ≤ 0) (ha : ArgsOk args)
    (hin : st.idxInput ≠ 0)
    (hA : ∃ a, (a, st.idxAction) ∈ passedOn e.removeArgs st.nulls args)
    (hL : st.idxLang ≠ 0 → ∃ a, (a, st.idxLang) ∈ passedOn e.removeArgs st.nulls args) :
    let kept := passedOn e.removeArgs st.nulls args
    let r := ccModify e.toCcEnv args st
    (∀ asm, r.1 ++ [dashO, asm] = firstCommand e kept st.idxAction none asm) ∧
    (∀ x asm, r.1.set r.2.action x ++ [dashO, asm] = firstCommand e kept st.idxAction (some x) asm) ∧
    (∀ x, ((r.1.set r.2.action x)[r.2.input]?).getD [] = ((argPos args st.idxInput).getD [])) ∧
    ∀ x, (let argv2 := ((r.1.set r.2.action x).set r.2.action (lit "-c")).set r.2.input as2
      let lang := (argv2[r.2.lang]?).getD []
      let argv3 := if r.2.lang = 0 then argv2
        else argv2.set r.2.lang (if argAt lang 0 = 45#8 then lit "-xassembler" else lit "assembler")
      argv3 ++ [dashO, out]) = secondCommand e kept st.idxAction st.idxInput st.idxLang as2 out := by
  intro kept r
  obtain ⟨-, -, r3, r4, r5, -⟩ := C52_roles e.toCcEnv args st hst
  have hK := passedOn_eq e.removeArgs hR hs st.nulls args ha
  obtain ⟨aI, hIp, hI⟩ := input_kept e.toCcEnv args ha st hst hin
  generalize hLs : ccNullify e.removeArgs (nullArgv args st.nulls) = L at hK
  have hkept : kept = keptOf L 1 := hK.symm
  rw [← hK] at hA hI hL
  have hr : r = (e.realgcc :: (keptOf L 1).map Prod.fst ++ e.appendArgs,
      ⟨compIdx L 1 1 st.idxInput, compIdx L 1 1 st.idxAction, compIdx L 1 1 st.idxLang⟩) := by
    show ccModify e.toCcEnv args st = _
    unfold ccModify
    rw [hLs, ccCompact_eq]
  rw [hr]
  dsimp only
  unfold firstCommand secondCommand
  rw [hkept]
  obtain ⟨aA, hA⟩ := hA
  have hout' : dashO = lit "-o" := rfl
  have s1 := fun x => set_tracked L st.idxAction aA hA x e.realgcc e.appendArgs Prod.fst
  have s2 := fun x => set_tracked L st.idxAction aA hA (lit "-c") e.realgcc e.appendArgs
    (fun p => if p.2 = st.idxAction then x else p.1)
  have s3 := fun x => set_tracked L st.idxInput aI hI as2 e.realgcc e.appendArgs
    (fun p => if p.2 = st.idxAction then lit "-c" else if p.2 = st.idxAction then x else p.1)
  refine ⟨?_, ?_, ?_, ?_⟩
  · intro asm
    rw [hout']
    simp
  · intro x asm
    rw [hout', s1]
    simp
  · intro x
    rw [s1, get_tracked L st.idxInput aI hI e.realgcc e.appendArgs (fun p => if p.2 = st.idxAction then x else p.1), hIp]
    simp [(r4 hin).2.1]
  intro x
  simp only [s1, s2, s3]
  rw [hout']
  by_cases hz : st.idxLang = 0
  · have hz' : compIdx L 1 1 st.idxLang = 0 := by rw [hz]; exact compIdx_before L 1 1 0 (by omega) (by omega)
    rw [if_pos hz']
    simp only [List.cons_append, List.append_assoc]
    congr 2
    apply List.map_congr_left
    intro p hp
    have := keptOf_ge L 1 p hp
    rw [if_neg (show ¬ p.2 = st.idxLang by omega)]
    by_cases h1 : p.2 = st.idxInput
    · simp [h1]
    · by_cases h2 : p.2 = st.idxAction <;> simp [h1, h2]
  · obtain ⟨aL, hL⟩ := hL hz
    have hge := (compIdx_get L 1 1 st.idxLang (Nat.le_refl _) aL hL).1
    rw [if_neg (by omega)]
    have s4 := fun v => set_tracked L st.idxLang aL hL v e.realgcc e.appendArgs
      (fun p => if p.2 = st.idxInput then as2 else if p.2 = st.idxAction then lit "-c"
        else if p.2 = st.idxAction then x else p.1)
    have g4 := get_tracked L st.idxLang aL hL e.realgcc e.appendArgs
      (fun p => if p.2 = st.idxInput then as2 else if p.2 = st.idxAction then lit "-c"
        else if p.2 = st.idxAction then x else p.1)
    rw [s4, g4]
    have hne1 : ¬ st.idxLang = st.idxInput := fun h => (r4 hin).2.2 h.symm
    have hge2 := (compIdx_get L 1 1 st.idxAction (Nat.le_refl _) aA hA).1
    have hAz : st.idxAction ≠ 0 := by
      have := keptOf_ge L 1 _ hA
      dsimp only at this
      omega
    have hne2 : ¬ st.idxLang = st.idxAction := fun h => (r5 hAz).2 h.symm
    simp only [hne1, hne2, if_false, Option.getD_some]
    simp only [List.cons_append, List.append_assoc]
    congr 2
    apply List.map_congr_left
    intro p hp
    by_cases h0 : p.2 = st.idxLang
    · have hpa : p = (aL, st.idxLang) := by
        obtain ⟨n, hn⟩ := List.getElem?_of_mem hp
        obtain ⟨m, hm⟩ := List.getElem?_of_mem hL
        have := keptOf_inj L 1 n m _ _ hn hm h0
        subst this
        rw [hn] at hm
        simpa using hm
      subst hpa
      simp
    · by_cases h1 : p.2 = st.idxInput
      · rw [if_neg h0, if_neg h0, if_pos h1, if_pos h1]
      · rw [if_neg h0, if_neg h0, if_neg h1, if_neg h1]
        by_cases h2 : p.2 = st.idxAction <;> simp [h2]

/-- What the `patched` stage leaves. -/
theorem stage_result {e : CcEnvB} {t : CcTools} (ht : OnlyOutput t.gensrc) {out f b : CStr} {files : CcFiles} {w0 w2 : CcW}
    (hu : ∀ n, ¬ MadeFor e out f n → w0.files n = files n)
    (ho : e.patched → w0.files (asmStem e out f ++ lit ".original.s") = files (asmStem e out f ++ lit ".original.s"))
    (h : stageStep e t (asmFile e out f) w0 = .ok b w2) :
    b = linkedFile e out f ∧ (∀ n, ¬ MadeFor e out f n → w2.files n = files n) ∧
      StageResult e t files out f (w0.files (asmFile e out f)) (w2.files (linkedFile e out f)) := by
  have hb : b = linkedFile e out f := by
    have h1 := cmds_stage e t out f w0
    rw [asmName_stem, h] at h1
    exact h1.1
  have htc := touches_stage e ht out f w0
  rw [h] at htc
  refine ⟨hb, fun n hn => (htc n hn).trans (hu n hn), ?_⟩
  unfold StageResult
  dsimp only
  by_cases hp : e.patched = true
  · rw [if_pos hp]
    have ha : asmFile e out f = asmStem e out f ++ lit ".patched.s" := by unfold asmFile; rw [if_pos hp]
    have hl : linkedFile e out f = asmStem e out f ++ lit ".s" := by unfold linkedFile; rw [if_pos hp]
    unfold stageStep at h
    rw [if_pos hp, ha] at h
    obtain ⟨fs1, fs2, g1, g2, g3, g4, g5⟩ := generate_ok ht h
    rw [ha, hl, ← ho hp]
    refine ⟨fs1, w0.files, fs2, fun n hn => ?_, hu, fun n hn => ?_, g2, ho hp ▸ rfl, g3, ?_, g5⟩
    · rw [(g1 n hn).1]; exact hu n hn
    · rw [(g1 n hn).2]; exact hu n hn
    · exact g4
  · rw [if_neg hp]
    have hl : linkedFile e out f = asmFile e out f := by unfold linkedFile asmFile; rw [if_neg hp, if_neg hp]
    unfold stageStep at h
    rw [if_neg hp] at h
    cases h
    rw [hl]

theorem baseName_append_length (x b : CStr) (hb : 47#8 ∉ b) : b.length ≤ (baseName (x ++ b)).length := by
  unfold baseName
  rw [List.length_reverse, List.reverse_append, List.takeWhile_append_of_pos]
  · simp
  · intro c hc
    have : c ≠ 47#8 := fun h => hb (h ▸ List.mem_reverse.1 hc)
    simpa using this

/-- The output is none of the files made for it. -/
theorem out_not_made (e : CcEnvB) (out : CStr) : ¬ MadeFor e out out out := by
  rintro ⟨s, hs, h⟩
  have hst : ∃ Z, asmStem e out out = Z ++ baseName out := by
    unfold asmStem
    dsimp only
    rw [ite_self]
    exact ⟨_, rfl⟩
  obtain ⟨Z, hZ⟩ := hst
  have h47 : ∀ s ∈ madeSuffixes, 47#8 ∉ s ∧ 0 < s.length := by decide +kernel
  rw [hZ, List.append_assoc] at h
  have := baseName_append_length Z (baseName out ++ s) (fun hm => by
    rcases List.mem_append.1 hm with hm | hm
    · exact noSlash_baseName out hm
    · exact (h47 s hs).1 hm)
  rw [← h, List.length_append] at this
  have := (h47 s hs).2
  omega


/-- The run for such a command line, with the arguments worked out. -/
theorem single_run (e : CcEnvB) (t : CcTools) (heap : Nat → Option CStr) (args : List CStr) (files : CcFiles)
    (st : CcScan) (hst : st = ccDecide e.toCcEnv args) (out : CStr)
    (hconf : e.configure = false)
    (hconf' : (args.any fun a => hasSub a (lit "conftest.") || hasSub a (lit "qemu-conf")) = false)
    (hR : ArgsOk e.removeArgs) (hs : e.removeArgs.Pairwise fun a b => strcmp a b ≤ 0) (ha : ArgsOk args)
    (hact : st.action ∈ [.compileSingle, .compileAsm, .compileAsmCpp, .generateAsm]) (hout : st.output = some out)
    (hin : st.idxInput ≠ 0)
    (hA : ∃ a, (a, st.idxAction) ∈ passedOn e.removeArgs st.nulls args)
    (hL : st.idxLang ≠ 0 → ∃ a, (a, st.idxLang) ∈ passedOn e.removeArgs st.nulls args) :
    let kept := passedOn e.removeArgs st.nulls args
    let asm := asmFile e out out
    let first := fun opt => firstCommand e kept st.idxAction opt asm
    ccMain e t heap args files =
      ((match st.action with
        | .compileAsm => ccCopy ((args[st.idxInput - 1]?).getD []) asm ⟨files, []⟩
        | .compileAsmCpp => runGcc t (first (some (lit "-E"))) ⟨files, []⟩
        | .generateAsm => runGcc t (first none) ⟨files, []⟩
        | _ => runGcc t (first (some (lit "-S"))) ⟨files, []⟩).andThen fun _ w =>
      (stageStep e t asm w).andThen fun as2 w =>
        if st.action = CcAction.generateAsm then ccCopy as2 out w
        else runGcc t (secondCommand e kept st.idxAction st.idxInput st.idxLang as2 out) w).end_ := by
  intro kept asm first
  have key := fun as2 => single_argv e args out as2 st hst hR hs ha hin hA hL
  dsimp only at key
  have hargP : argPos args st.idxInput = args[st.idxInput - 1]? := by unfold argPos; rw [if_neg hin]
  unfold ccMain
  rw [if_neg (by simp [hconf, hconf']), ← hst]
  dsimp only
  rw [hout, Option.getD_some]
  simp only [List.mem_cons, List.not_mem_nil, or_false] at hact
  rcases hact with h | h | h | h <;> rw [h] <;> dsimp only <;> unfold compileSingleW <;> dsimp only <;> rw [asmName_stem]
  · simp only [reduceCtorEq, if_false]
    rw [(key []).2.1]
    congr 2; funext _ w; congr 1; funext as2 w
    rw [(key as2).2.2.2 (lit "-S")]
  · simp only [reduceCtorEq, if_false, if_true]
    rw [(key []).2.2.1, hargP]
    congr 2; funext _ w; congr 1; funext as2 w
    rw [(key as2).2.2.2 (lit "-S")]
  · simp only [reduceCtorEq, if_false]
    rw [(key []).2.1]
    congr 2; funext _ w; congr 1; funext as2 w
    rw [(key as2).2.2.2 (lit "-E")]
  · simp only [reduceCtorEq, if_false, if_true]
    rw [(key []).1]

theorem copy_ok {a b : CStr} {w w' : CcW} (h : ccCopy a b w = .ok () w') :
    w'.files b = w.files a ∧ (∀ n, n ≠ b → w'.files n = w.files n) := by
  unfold ccCopy at h
  cases hf : w.files a with
  | none => rw [hf] at h; cases h
  | some c =>
    rw [hf] at h
    cases h
    exact ⟨by simp, fun n hn => by simp [hn]⟩

/-- **C78**, passed-through commands.  The wrapper replaces itself with the real compiler, given exactly the user's
arguments, when it is told to (`KPATCH_STAGE=configure`), when an argument names a configure test, and when there is
nothing to compile: and never with other arguments. -/
theorem C78_passthrough (e : CcEnvB) (t : CcTools) (heap : Nat → Option CStr) (args : List CStr) (files : CcFiles) :
    (∀ argv, ccMain e t heap args files = .exec argv → argv = e.realgcc :: args) ∧
    (ccMain e t heap args files = .exec (e.realgcc :: args) ↔
      e.configure = true ∨ (∃ a ∈ args, hasSub a (lit "conftest.") = true ∨ hasSub a (lit "qemu-conf") = true) ∨
      (ccDecide e.toCcEnv args).action = .passthrough) := by
  have hany : (args.any fun a => hasSub a (lit "conftest.") || hasSub a (lit "qemu-conf")) = true ↔
      ∃ a ∈ args, hasSub a (lit "conftest.") = true ∨ hasSub a (lit "qemu-conf") = true := by
    simp [List.any_eq_true, Bool.or_eq_true]
  have hend : ∀ (r : CcRes Unit) argv, r.end_ ≠ .exec argv := by
    intro r argv
    cases r <;> simp [CcRes.end_]
  by_cases h : e.configure = true ∨ (args.any fun a => hasSub a (lit "conftest.") || hasSub a (lit "qemu-conf")) = true
  · have hm : ccMain e t heap args files = .exec (e.realgcc :: args) := by
      unfold ccMain
      rw [if_pos h]
    rw [hm]
    refine ⟨fun argv ha => by cases ha; rfl, iff_of_true rfl ?_⟩
    rcases h with h | h
    · exact Or.inl h
    · exact Or.inr (Or.inl (hany.1 h))
  · have hm : ∀ argv, ccMain e t heap args files = .exec argv →
        argv = e.realgcc :: args ∧ (ccDecide e.toCcEnv args).action = .passthrough := by
      intro argv ha
      unfold ccMain at ha
      rw [if_neg h] at ha
      dsimp only at ha
      cases hd : (ccDecide e.toCcEnv args).action with
      | passthrough =>
        rw [hd] at ha
        cases ha
        exact ⟨rfl, rfl⟩
      | buildMultiple => rw [hd] at ha; exact absurd ha (hend _ _)
      | error | showVersion | showV | cpp | compileSingle | compileAsm | compileAsmCpp | generateAsm =>
        rw [hd] at ha; exact absurd ha (hend _ _)
    refine ⟨fun argv ha => (hm argv ha).1, fun ha => Or.inr (Or.inr (hm _ ha).2), ?_⟩
    rintro (h1 | h1 | h1)
    · exact absurd (Or.inl h1) h
    · exact absurd (Or.inr (hany.2 h1)) h
    · unfold ccMain
      rw [if_neg h]
      dsimp only
      rw [h1]

/-- **C78**, the commands (partial: as in C52 the removal list must be in the order of `strcmp`, and the action and the
language must not be in it).  For every command line that compiles, assembles or translates to assembler a single
file, and whatever the tools do: the real compiler is run with the two commands of C52, in order, up to the first that
fails; with both, if the wrapper exits with 0.  A `.S` file is preprocessed with `-E` instead of `-S`; for an
assembler file there is only the second command, and with `-S` only the first. -/
theorem C78_commands_partial (e : CcEnvB) (t : CcTools) (heap : Nat → Option CStr) (args : List CStr) (files : CcFiles)
    (st : CcScan) (hst : st = ccDecide e.toCcEnv args) (out : CStr) (rc : Nat) (w : CcW)
    (hconf : e.configure = false)
    (hconf' : (args.any fun a => hasSub a (lit "conftest.") || hasSub a (lit "qemu-conf")) = false)
    (hR : ArgsOk e.removeArgs) (hs : e.removeArgs.Pairwise fun a b => strcmp a b ≤ 0) (ha : ArgsOk args)
    (hact : st.action ∈ [.compileSingle, .compileAsm, .compileAsmCpp, .generateAsm]) (hout : st.output = some out)
    (hin : st.idxInput ≠ 0)
    (hA : ∃ a, (a, st.idxAction) ∈ passedOn e.removeArgs st.nulls args)
    (hL : st.idxLang ≠ 0 → ∃ a, (a, st.idxLang) ∈ passedOn e.removeArgs st.nulls args)
    (hrun : ccMain e t heap args files = .exit rc w) :
    let cmds := singleCommands e (passedOn e.removeArgs st.nulls args) st out
    gccRuns w.log <+: cmds ∧ (rc = 0 → gccRuns w.log = cmds) := by
  intro cmds
  have hb := single_run e t heap args files st hst out hconf hconf' hR hs ha hact hout hin hA hL
  rw [hrun] at hb
  dsimp only at hb
  generalize hr : CcRes.andThen _ _ = r at hb
  have hc : Cmds ⟨files, []⟩ () cmds r ∧ StepOk ⟨files, []⟩ r := by
    rw [← hr]
    have hstage : ∀ w, Cmds w (linkedFile e out out) [] (stageStep e t (asmFile e out out) w) := by
      intro w
      rw [← asmName_stem]
      exact cmds_stage e t out out w
    constructor
    · simp only [List.mem_cons, List.not_mem_nil, or_false] at hact
      show Cmds _ _ (singleCommands _ _ _ _) _
      unfold singleCommands
      dsimp only
      rcases hact with h | h | h | h <;> rw [h] <;> dsimp only
      · refine Cmds.andThen (c1 := [_]) (c2 := [_]) (cmds_gcc t _ _) fun w => (hstage w).then0 fun w => ?_
        rw [if_neg (by decide)]
        exact cmds_gcc t _ _
      · refine (cmds_copy _ _ _).then0 fun w => (hstage w).then0 fun w => ?_
        rw [if_neg (by decide)]
        exact cmds_gcc t _ _
      · refine Cmds.andThen (c1 := [_]) (c2 := [_]) (cmds_gcc t _ _) fun w => (hstage w).then0 fun w => ?_
        rw [if_neg (by decide)]
        exact cmds_gcc t _ _
      · refine (cmds_gcc t _ _).then1 fun w => (hstage w).then0 fun w => ?_
        rw [if_pos rfl]
        exact cmds_copy _ _ _
    · refine StepOk.andThen ?_ fun _ w => (stepOk_stage e t _ w).andThen fun as2 w => ?_
      · split
        · exact stepOk_copy _ _ _
        · exact stepOk_gcc _ _ _
        · exact stepOk_gcc _ _ _
        · exact stepOk_gcc _ _ _
      · split
        · exact stepOk_copy _ _ _
        · exact stepOk_gcc _ _ _
  cases r with
  | ok a w' =>
    simp only [CcRes.end_, CcEnd.exit.injEq] at hb
    have := hc.1.2
    simp only [gccRuns, List.filterMap_nil, List.nil_append] at this
    rw [hb.2]
    show gccRuns w'.log <+: _ ∧ _
    unfold gccRuns
    rw [this]
    exact ⟨List.prefix_refl _, fun _ => rfl⟩
  | stop s w' =>
    simp only [CcRes.end_, CcEnd.exit.injEq] at hb
    have h1 := hc.1
    have h2 := hc.2.1
    rw [hb.2]
    refine ⟨?_, fun h => absurd (hb.1.symm.trans h) h2⟩
    obtain ⟨l, h3, h4⟩ := h1
    rw [h4]
    exact h3

/-- **C78**, the user's files (partial as above, and the tools write only the file given with `-o`).  Whatever happens,
only the output and the files named after it are changed. -/
theorem C78_files_kept_partial (e : CcEnvB) (t : CcTools) (heap : Nat → Option CStr) (args : List CStr) (files : CcFiles)
    (st : CcScan) (hst : st = ccDecide e.toCcEnv args) (out : CStr) (rc : Nat) (w : CcW)
    (hconf : e.configure = false)
    (hconf' : (args.any fun a => hasSub a (lit "conftest.") || hasSub a (lit "qemu-conf")) = false)
    (hR : ArgsOk e.removeArgs) (hs : e.removeArgs.Pairwise fun a b => strcmp a b ≤ 0) (ha : ArgsOk args)
    (hact : st.action ∈ [.compileSingle, .compileAsm, .compileAsmCpp, .generateAsm]) (hout : st.output = some out)
    (hin : st.idxInput ≠ 0)
    (hA : ∃ a, (a, st.idxAction) ∈ passedOn e.removeArgs st.nulls args)
    (hL : st.idxLang ≠ 0 → ∃ a, (a, st.idxLang) ∈ passedOn e.removeArgs st.nulls args)
    (hg : OnlyOutput t.gcc) (ht : OnlyOutput t.gensrc)
    (hrun : ccMain e t heap args files = .exit rc w) (n : CStr) (hn : n ≠ out) (hm : ¬ MadeFor e out out n) :
    w.files n = files n := by
  have hb := single_run e t heap args files st hst out hconf hconf' hR hs ha hact hout hin hA hL
  rw [hrun] at hb
  dsimp only at hb
  generalize hr : CcRes.andThen _ _ = r at hb
  have htouch : Touches (fun n => n = out ∨ MadeFor e out out n) ⟨files, []⟩ r := by
    rw [← hr]
    refine Touches.andThen ?_ fun _ w => ((touches_stage e ht out out w).mono fun _ h => Or.inr h).andThen fun as2 w => ?_
    · split
      · exact touches_copy _ _ _ (Or.inr (made_asm e out out)) _
      all_goals
        unfold firstCommand
        exact touches_gcc hg _ _ _ (Or.inr (made_asm e out out)) _
    · split
      · exact touches_copy _ _ _ (Or.inl rfl) _
      · unfold secondCommand
        exact touches_gcc hg _ _ _ (Or.inl rfl) _
  have hnot : ¬ (n = out ∨ MadeFor e out out n) := fun h => h.elim hn hm
  cases r with
  | ok a w' =>
    simp only [CcRes.end_, CcEnd.exit.injEq] at hb
    rw [hb.2]
    exact htouch n hnot
  | stop s w' =>
    simp only [CcRes.end_, CcEnd.exit.injEq] at hb
    rw [hb.2]
    exact htouch n hnot

/-- **C78**, what is assembled (partial as above).  If the wrapper exits with 0, the output is what the last command
makes of the file given to it in place of the input (with `-S`: it is that file).  The contents of that file are, in
the `original` stage, the assembler text of the input: what the first command writes, or the input itself if it is
assembler.  In the `patched` stage they are the patch made from that text and the one of the `original` stage. -/
theorem C78_contents_partial (e : CcEnvB) (t : CcTools) (heap : Nat → Option CStr) (args : List CStr) (files : CcFiles)
    (st : CcScan) (hst : st = ccDecide e.toCcEnv args) (out : CStr) (w : CcW)
    (hconf : e.configure = false)
    (hconf' : (args.any fun a => hasSub a (lit "conftest.") || hasSub a (lit "qemu-conf")) = false)
    (hR : ArgsOk e.removeArgs) (hs : e.removeArgs.Pairwise fun a b => strcmp a b ≤ 0) (ha : ArgsOk args)
    (hact : st.action ∈ [.compileSingle, .compileAsm, .compileAsmCpp, .generateAsm]) (hout : st.output = some out)
    (hin : st.idxInput ≠ 0)
    (hA : ∃ a, (a, st.idxAction) ∈ passedOn e.removeArgs st.nulls args)
    (hL : st.idxLang ≠ 0 → ∃ a, (a, st.idxLang) ∈ passedOn e.removeArgs st.nulls args)
    (hg : OnlyOutput t.gcc) (ht : OnlyOutput t.gensrc)
    (hrun : ccMain e t heap args files = .exit 0 w) :
    let kept := passedOn e.removeArgs st.nulls args
    let asm := linkedFile e out out
    ∃ fs : CcFiles, (∀ n, ¬ MadeFor e out out n → fs n = files n) ∧
      StageResult e t files out out (singleText e t kept st args out files) (fs asm) ∧
      w.files out = if st.action = .generateAsm then fs asm
        else (t.gcc (secondCommand e kept st.idxAction st.idxInput st.idxLang asm out) fs).2 out := by
  intro kept asm
  have hb := single_run e t heap args files st hst out hconf hconf' hR hs ha hact hout hin hA hL
  rw [hrun] at hb
  dsimp only at hb
  generalize h1 : (match st.action with
    | .compileAsm => ccCopy ((args[st.idxInput - 1]?).getD []) (asmFile e out out) ⟨files, []⟩
    | .compileAsmCpp => runGcc t (firstCommand e kept st.idxAction (some (lit "-E")) (asmFile e out out)) ⟨files, []⟩
    | .generateAsm => runGcc t (firstCommand e kept st.idxAction none (asmFile e out out)) ⟨files, []⟩
    | _ => runGcc t (firstCommand e kept st.idxAction (some (lit "-S")) (asmFile e out out)) ⟨files, []⟩) = r1 at hb
  have ht1 : StepOk ⟨files, []⟩ r1 := by
    rw [← h1]
    split
    · exact stepOk_copy _ _ _
    · exact stepOk_gcc _ _ _
    · exact stepOk_gcc _ _ _
    · exact stepOk_gcc _ _ _
  cases r1 with
  | stop s x =>
    simp only [CcRes.andThen, CcRes.end_, CcEnd.exit.injEq] at hb
    exact absurd hb.1.symm ht1.1
  | ok u w0 =>
    -- the first command
    have hgcc : ∀ opt, runGcc t (firstCommand e kept st.idxAction opt (asmFile e out out)) ⟨files, []⟩ = .ok u w0 →
        w0.files (asmFile e out out) = (t.gcc (firstCommand e kept st.idxAction opt (asmFile e out out)) files).2
          (asmFile e out out) ∧ ∀ n, n ≠ asmFile e out out → w0.files n = files n := by
      intro opt h
      have := runGcc_ok h
      rw [this]
      refine ⟨rfl, fun n hn => ?_⟩
      unfold firstCommand
      exact hg _ _ _ n hn
    have hw0 : w0.files (asmFile e out out) = singleText e t kept st args out files ∧
        ∀ n, n ≠ asmFile e out out → w0.files n = files n := by
      unfold singleText
      dsimp only
      simp only [List.mem_cons, List.not_mem_nil, or_false] at hact
      rcases hact with h | h | h | h <;> rw [h] at h1 <;> rw [h] <;> dsimp only at h1 ⊢
      · exact hgcc _ h1
      · exact copy_ok h1
      · exact hgcc _ h1
      · exact hgcc _ h1
    simp only [CcRes.andThen] at hb
    cases h2 : stageStep e t (asmFile e out out) w0 with
    | stop s x =>
      have := stepOk_stage e t (asmFile e out out) w0
      rw [h2] at this hb
      simp only [CcRes.end_, CcEnd.exit.injEq] at hb
      exact absurd hb.1.symm this.1
    | ok b w2 =>
      rw [h2] at hb
      dsimp only at hb
      obtain ⟨rfl, hu, hres⟩ := stage_result (files := files) ht
        (fun n hn => hw0.2 n fun h => hn (h ▸ made_asm e out out))
        (fun hp => hw0.2 _ fun h => by
          unfold asmFile at h
          rw [if_pos hp] at h
          exact absurd (List.append_cancel_left h) (by decide +kernel)) h2
      rw [hw0.1] at hres
      refine ⟨w2.files, hu, hres, ?_⟩
      by_cases hga : st.action = .generateAsm
      · rw [if_pos hga] at hb ⊢
        cases h3 : ccCopy (linkedFile e out out) out w2 with
        | stop s x =>
          have := stepOk_copy (linkedFile e out out) out w2
          rw [h3] at this hb
          simp only [CcRes.end_, CcEnd.exit.injEq] at hb
          exact absurd hb.1.symm this.1
        | ok u3 w3 =>
          rw [h3] at hb
          cases hb
          exact (copy_ok h3).1
      · rw [if_neg hga] at hb ⊢
        cases h3 : runGcc t (secondCommand e kept st.idxAction st.idxInput st.idxLang (linkedFile e out out) out) w2 with
        | stop s x =>
          have := stepOk_gcc t (secondCommand e kept st.idxAction st.idxInput st.idxLang (linkedFile e out out) out) w2
          rw [h3] at this hb
          simp only [CcRes.end_, CcEnd.exit.injEq] at hb
          exact absurd hb.1.symm this.1
        | ok u3 w3 =>
          rw [h3] at hb
          cases hb
          rw [runGcc_ok h3]

/-- The environment of `c52Env` in the `patched` stage. -/
def c78Env : CcEnvB := { c76Env with patched := true, removeArgs := [lit "-g"], dbgArgs := [lit "--dbg-filter"] }

/-- A compilation of one file. -/
theorem c78_run : endRuns (ccMain c78Env exTools (fun _ => none) c52Args
    (fun n => if n = lit "./.kpatch_foo.o.original.s" then some [7#8] else none)) = some (0,
    [[lit "gcc", lit "-O2", lit "-x", lit "c", lit "-S", lit "src/foo.c", lit "-DX", lit "-fno-x", lit "-o",
      lit "./.kpatch_foo.o.patched.s"],
     [lit "gcc", lit "-O2", lit "-x", lit "assembler", lit "-c", lit "./.kpatch_foo.o.s", lit "-DX", lit "-fno-x", lit "-o",
      lit "foo.o"]]) := by
  decide +kernel

/-- What the theorems say of it, for all tools that write only their output. -/
example (t : CcTools) (hg : OnlyOutput t.gcc) (ht : OnlyOutput t.gensrc) (heap : Nat → Option CStr) (files : CcFiles) (w : CcW)
    (h : ccMain c78Env t heap c52Args files = .exit 0 w) :
    gccRuns w.log = [[lit "gcc", lit "-O2", lit "-x", lit "c", lit "-S", lit "src/foo.c", lit "-DX", lit "-fno-x", lit "-o",
      lit "./.kpatch_foo.o.patched.s"],
     [lit "gcc", lit "-O2", lit "-x", lit "assembler", lit "-c", lit "./.kpatch_foo.o.s", lit "-DX", lit "-fno-x", lit "-o",
      lit "foo.o"]] ∧ w.files (lit "src/foo.c") = files (lit "src/foo.c") ∧
    ∃ fs : CcFiles, fs (lit "foo.h") = files (lit "foo.h") ∧ w.files (lit "foo.o") =
      (t.gcc [lit "gcc", lit "-O2", lit "-x", lit "assembler", lit "-c", lit "./.kpatch_foo.o.s", lit "-DX", lit "-fno-x",
        lit "-o", lit "foo.o"] fs).2 (lit "foo.o") := by
  have h1 : ArgsOk c78Env.removeArgs := by unfold ArgsOk; decide +kernel
  have h2 : ArgsOk c52Args := by unfold ArgsOk; decide +kernel
  have hs : c78Env.removeArgs.Pairwise fun a b => strcmp a b ≤ 0 := by decide +kernel
  have hk : passedOn c78Env.removeArgs (ccDecide c78Env.toCcEnv c52Args).nulls c52Args =
      [(lit "-O2", 2), (lit "-x", 3), (lit "c", 4), (lit "-c", 5), (lit "src/foo.c", 8), (lit "-DX", 9)] := by
    rw [← passedOn_eq _ h1 hs _ _ h2]; decide +kernel
  have hact : (ccDecide c78Env.toCcEnv c52Args).action = .compileSingle := by decide +kernel
  have hA : (ccDecide c78Env.toCcEnv c52Args).idxAction = 5 := by decide +kernel
  have hI : (ccDecide c78Env.toCcEnv c52Args).idxInput = 8 := by decide +kernel
  have hL : (ccDecide c78Env.toCcEnv c52Args).idxLang = 4 := by decide +kernel
  have hO : (ccDecide c78Env.toCcEnv c52Args).output = some (lit "foo.o") := by decide +kernel
  have hin : (ccDecide c78Env.toCcEnv c52Args).idxInput ≠ 0 := by rw [hI]; decide
  have hA' : ∃ a, (a, (ccDecide c78Env.toCcEnv c52Args).idxAction) ∈
      passedOn c78Env.removeArgs (ccDecide c78Env.toCcEnv c52Args).nulls c52Args := by
    rw [hA, hk]; exact ⟨lit "-c", by simp⟩
  have hL' : (ccDecide c78Env.toCcEnv c52Args).idxLang ≠ 0 → ∃ a, (a, (ccDecide c78Env.toCcEnv c52Args).idxLang) ∈
      passedOn c78Env.removeArgs (ccDecide c78Env.toCcEnv c52Args).nulls c52Args := by
    intro _
    rw [hL, hk]; exact ⟨lit "c", by simp⟩
  have hact' : (ccDecide c78Env.toCcEnv c52Args).action ∈
      [CcAction.compileSingle, .compileAsm, .compileAsmCpp, .generateAsm] := by rw [hact]; simp
  have hmade : ¬ MadeFor c78Env (lit "foo.o") (lit "foo.o") (lit "src/foo.c") := by unfold MadeFor; decide +kernel
  have hmade' : ¬ MadeFor c78Env (lit "foo.o") (lit "foo.o") (lit "foo.h") := by unfold MadeFor; decide +kernel
  have e1 : linkedFile c78Env (lit "foo.o") (lit "foo.o") = lit "./.kpatch_foo.o.s" := by decide +kernel
  refine ⟨?_, ?_, ?_⟩
  · rw [(C78_commands_partial c78Env t heap c52Args files _ rfl (lit "foo.o") 0 w rfl (by decide +kernel) h1 hs h2 hact' hO hin
      hA' hL' h).2 rfl, hk]
    unfold singleCommands
    rw [hact, hA, hI, hL]
    decide +kernel
  · exact C78_files_kept_partial c78Env t heap c52Args files _ rfl (lit "foo.o") 0 w rfl (by decide +kernel) h1 hs h2 hact' hO hin
      hA' hL' hg ht h _ (by decide +kernel) hmade
  · obtain ⟨fs, hu, -, ho⟩ := C78_contents_partial c78Env t heap c52Args files _ rfl (lit "foo.o") w rfl (by decide +kernel) h1
      hs h2 hact' hO hin hA' hL' hg ht h
    rw [hact, hA, hI, hL, hk, if_neg (by decide), e1] at ho
    refine ⟨fs, hu _ hmade', ?_⟩
    rw [ho]
    have e2 : secondCommand c78Env
        [(lit "-O2", 2), (lit "-x", 3), (lit "c", 4), (lit "-c", 5), (lit "src/foo.c", 8), (lit "-DX", 9)] 5 8 4
        (lit "./.kpatch_foo.o.s") (lit "foo.o") = [lit "gcc", lit "-O2", lit "-x", lit "assembler", lit "-c",
        lit "./.kpatch_foo.o.s", lit "-DX", lit "-fno-x", lit "-o", lit "foo.o"] := by decide +kernel
    rw [e2]

/-- Assembler files are copied and, with `-S`, the patch is the output. -/
example : endRuns (ccMain { c78Env with gensrcAsm := true } exTools (fun _ => none) [lit "-c", lit "a.s", lit "-o", lit "a.o"]
    (fun n => if n = lit "a.s" then some [7#8] else none)) = some (0,
    [[lit "gcc", lit "-c", lit "./.kpatch_a.o.s", lit "-fno-x", lit "-o", lit "a.o"]]) := by
  decide +kernel

example : endRuns (ccMain c78Env exTools (fun _ => none) [lit "-S", lit "a.c", lit "-o", lit "a.s"] (fun _ => none)) =
    some (0, [[lit "gcc", lit "-S", lit "a.c", lit "-fno-x", lit "-o", lit "./.kpatch_a.s.patched.s"]]) := by
  decide +kernel

/-- A command without an input is passed through. -/
example : ccMain c78Env exTools (fun _ => none) [lit "--version"] (fun _ => none) = .exec [lit "gcc", lit "--version"] :=
  (C78_passthrough c78Env exTools _ _ _).2.2 (Or.inr (Or.inr (by decide +kernel)))

end Verif
