import Verif.Proof.Cc
/-
C52: the compiler wrapper passes the user's arguments on faithfully.
-/
namespace Verif

open Classical in
theorem passedOn_eq (R : List CStr) (hR : ArgsOk R) (hs : R.Pairwise fun a b => strcmp a b ≤ 0)
    (outs : List Nat) (args : List CStr) (ha : ArgsOk args) :
    keptOf (ccNullify R (nullArgv args outs)) 1 = passedOn R outs args := by
  unfold nullArgv passedOn positions
  rw [keptOf_nullify]
  apply List.filter_congr
  intro p hp
  have hmem : p.1 ∈ args := by
    obtain ⟨a, k⟩ := p
    exact List.mem_of_getElem? (List.mk_mem_zipIdx_iff_le_and_getElem?_sub.1 hp).2
  have := ccRemoved_sorted R p.1 hR (ha _ hmem) hs
  by_cases h1 : p.2 ∈ outs
  · simp [h1]
  · by_cases h2 : IsOption p.1 ∧ p.1 ∈ R
    · simp [h1, h2, this.2 h2]
    · have h3 : ccRemoved R p.1 = false := by
        cases hc : ccRemoved R p.1 with
        | false => rfl
        | true => exact absurd (this.1 hc) h2
      simp [h1, h2, h3]

theorem decide_fields (e : CcEnv) (args : List CStr) :
    (ccDecide e args).nulls = (ccScan args 1 { action := if args = [lit "-v"] then .showV else .passthrough }).nulls ∧
    (ccDecide e args).idxInput = (ccScan args 1 { action := if args = [lit "-v"] then .showV else .passthrough }).idxInput ∧
    (ccDecide e args).idxAction = (ccScan args 1 { action := if args = [lit "-v"] then .showV else .passthrough }).idxAction ∧
    (ccDecide e args).idxLang = (ccScan args 1 { action := if args = [lit "-v"] then .showV else .passthrough }).idxLang :=
  ⟨rfl, rfl, rfl, rfl⟩

/-- **C52**, what the wrapper takes the arguments for.  For every command line: the positions treated as
output specification are an argument starting with `-o`, or the one after an argument `-o`; the position
treated as action is an argument starting with `-c` or `-S`; the input is an argument that is no option;
and no position has two of these roles. -/
theorem C52_roles (e : CcEnv) (args : List CStr) (st : CcScan) (h : st = ccDecide e args) :
    (∀ p ∈ st.nulls, (∃ a, argPos args p = some a ∧ argAt a 0 = 45#8 ∧ argAt a 1 = 111#8) ∨
      (∃ a, argPos args (p - 1) = some a ∧ argAt a 0 = 45#8 ∧ argAt a 1 = 111#8 ∧ argAt a 2 = 0#8)) ∧
    (st.idxAction ≠ 0 → ∃ a, argPos args st.idxAction = some a ∧ argAt a 0 = 45#8 ∧ (argAt a 1 = 99#8 ∨ argAt a 1 = 83#8)) ∧
    (st.idxInput ≠ 0 → ∃ a, argPos args st.idxInput = some a ∧ (argAt a 0 ≠ 45#8 ∨ argAt a 1 = 0#8)) ∧
    (st.idxInput ≠ 0 → st.idxInput ∉ st.nulls ∧ st.idxInput ≠ st.idxAction ∧ st.idxInput ≠ st.idxLang) ∧
    (st.idxAction ≠ 0 → st.idxAction ∉ st.nulls ∧ st.idxAction ≠ st.idxLang) ∧
    (st.idxLang ≠ 0 → st.idxLang ∉ st.nulls) := by
  have h0 : ScanInv args 1 { action := if args = [lit "-v"] then .showV else .passthrough } :=
    { input := fun h => absurd rfl h
      action := fun h => by
        dsimp only at h
        by_cases hv : args = [lit "-v"]
        · rw [if_pos hv] at h; rcases h with h | h <;> cases h
        · rw [if_neg hv] at h; rcases h with h | h <;> cases h
      action' := fun h => absurd rfl h
      nulls := fun p hp => by simp at hp
      lt1 := Nat.zero_lt_one
      lt2 := Nat.zero_lt_one
      lt3 := Nat.zero_lt_one
      lt4 := fun p hp => by simp at hp
      sep := fun h => absurd rfl h
      sep' := fun h => absurd rfl h
      sep'' := fun h => absurd rfl h }
  obtain ⟨j, hj⟩ := ccScan_inv args args.length args 1 _ (Nat.le_refl _) (Nat.le_refl _) (by simp) h0
  obtain ⟨e1, e2, e3, e4⟩ := decide_fields e args
  subst h
  rw [e1, e2, e3, e4]
  exact ⟨hj.nulls, hj.action', hj.input, hj.sep, hj.sep', hj.sep''⟩

/-- **C52** (partial: the removal list must be in the order of `strcmp`, which the wrapper fails to
establish; one input file).  For every command line compiled with `-c` that has an input file: two commands
are run.  The first gets the user's arguments in order, except the output specification and the options in
the removal list, with `-S` in place of the action, followed by the arguments to append and the name of
the assembler file; the second the same with `-c` for the action, the assembler file for the input and
`assembler` for the language, followed by the output. -/
theorem C52_commands_partial (e : CcEnv) (args : List CStr) (as1 as2 out : CStr) (st : CcScan)
    (hst : st = ccDecide e args)
    (hconf : e.configure = false)
    (hconf' : (args.any fun a => hasSub a (lit "conftest.") || hasSub a (lit "qemu-conf")) = false)
    (hR : ArgsOk e.removeArgs) (hs : e.removeArgs.Pairwise fun a b => strcmp a b ≤ 0) (ha : ArgsOk args)
    (hact : st.action = .compileSingle) (hout : st.output = some out) (hin : st.idxInput ≠ 0)
    (hA : ∃ a, (a, st.idxAction) ∈ passedOn e.removeArgs st.nulls args)
    (hL : st.idxLang ≠ 0 → ∃ a, (a, st.idxLang) ∈ passedOn e.removeArgs st.nulls args) :
    ccRun e args as1 as2 = some
      [e.realgcc :: (passedOn e.removeArgs st.nulls args).map (fun p => if p.2 = st.idxAction then lit "-S" else p.1)
          ++ e.appendArgs ++ [lit "-o", as1],
       e.realgcc :: (passedOn e.removeArgs st.nulls args).map (fun p =>
            if p.2 = st.idxLang then (if argAt p.1 0 = 45#8 then lit "-xassembler" else lit "assembler")
            else if p.2 = st.idxInput then as2 else if p.2 = st.idxAction then lit "-c" else p.1)
          ++ e.appendArgs ++ [lit "-o", out]] := by
  obtain ⟨-, -, r3, r4, r5, -⟩ := C52_roles e args st hst
  have hK := passedOn_eq e.removeArgs hR hs st.nulls args ha
  generalize hLs : ccNullify e.removeArgs (nullArgv args st.nulls) = L at hK
  -- the input is passed on
  have hI : ∃ a, (a, st.idxInput) ∈ passedOn e.removeArgs st.nulls args := by
    obtain ⟨a, h1, h2⟩ := r3 hin
    refine ⟨a, ?_⟩
    unfold passedOn positions
    rw [List.mem_filter]
    unfold argPos at h1
    rw [if_neg hin] at h1
    refine ⟨?_, ?_⟩
    · rw [List.mk_mem_zipIdx_iff_le_and_getElem?_sub]
      exact ⟨by omega, h1⟩
    · simp only [decide_eq_true_eq]
      refine ⟨(r4 hin).1, ?_⟩
      rintro ⟨h3, -⟩
      exact (isOption_iff a (ha a (List.mem_of_getElem? h1))).1 h3 h2
  rw [← hK] at hA hI hL ⊢
  unfold ccRun
  rw [if_neg (by simp [hconf, hconf']), ← hst]
  dsimp only
  rw [hact]
  dsimp only
  unfold ccModify
  rw [hLs, ccCompact_eq]
  dsimp only
  rw [hout, Option.getD_some]
  unfold compileSingle
  obtain ⟨aA, hA⟩ := hA
  obtain ⟨aI, hI⟩ := hI
  have s1 := set_tracked L st.idxAction aA hA (lit "-S") e.realgcc e.appendArgs Prod.fst
  have s2 := set_tracked L st.idxAction aA hA (lit "-c") e.realgcc e.appendArgs
    (fun p => if p.2 = st.idxAction then lit "-S" else p.1)
  have s3 := set_tracked L st.idxInput aI hI as2 e.realgcc e.appendArgs
    (fun p => if p.2 = st.idxAction then lit "-c" else if p.2 = st.idxAction then lit "-S" else p.1)
  simp only [if_neg (show CcAction.compileSingle ≠ .compileAsm by decide),
    if_neg (show CcAction.compileSingle ≠ .generateAsm by decide), s1, s2, s3]
  have hout' : dashO = lit "-o" := rfl
  rw [hout']
  by_cases hz : st.idxLang = 0
  · have hz' : compIdx L 1 1 st.idxLang = 0 := by rw [hz]; exact compIdx_before L 1 1 0 (by omega) (by omega)
    rw [if_pos hz']
    simp only [List.cons_append, List.append_assoc, List.nil_append]
    congr 5
    apply List.map_congr_left
    intro p hp
    have := keptOf_ge L 1 p hp
    rw [if_neg (show ¬ p.2 = st.idxLang by omega)]
    by_cases h1 : p.2 = st.idxInput
    · simp [h1]
    · by_cases h2 : p.2 = st.idxAction <;> simp [h1, h2]
  · obtain ⟨aL, hL⟩ := hL hz
    have hge := (compIdx_get L 1 1 st.idxLang (Nat.le_refl _) aL hL).1
    rw [if_neg (by omega)]
    have s4 := fun v => set_tracked L st.idxLang aL hL v e.realgcc e.appendArgs
      (fun p => if p.2 = st.idxInput then as2 else if p.2 = st.idxAction then lit "-c"
        else if p.2 = st.idxAction then lit "-S" else p.1)
    have g4 := get_tracked L st.idxLang aL hL e.realgcc e.appendArgs
      (fun p => if p.2 = st.idxInput then as2 else if p.2 = st.idxAction then lit "-c"
        else if p.2 = st.idxAction then lit "-S" else p.1)
    rw [s4, g4]
    have hne1 : ¬ st.idxLang = st.idxInput := fun h => (r4 hin).2.2 h.symm
    have hge2 := (compIdx_get L 1 1 st.idxAction (Nat.le_refl _) aA hA).1
    have hAz : st.idxAction ≠ 0 := by
      have := keptOf_ge L 1 _ hA
      dsimp only at this
      omega
    have hne2 : ¬ st.idxLang = st.idxAction := fun h => (r5 hAz).2 h.symm
    simp only [hne1, hne2, if_false, Option.getD_some]
    simp only [List.cons_append, List.append_assoc, List.nil_append]
    congr 5
    apply List.map_congr_left
    intro p hp
    by_cases h0 : p.2 = st.idxLang
    · -- the only entry at this position is the language argument
      have hpa : p = (aL, st.idxLang) := by
        obtain ⟨n, hn⟩ := List.getElem?_of_mem hp
        obtain ⟨m, hm⟩ := List.getElem?_of_mem hL
        have := keptOf_inj L 1 n m _ _ hn hm h0
        subst this
        rw [hn] at hm
        simpa using hm
      subst hpa
      simp
    · by_cases h1 : p.2 = st.idxInput
      · rw [if_neg h0, if_neg h0, if_pos h1, if_pos h1]
      · rw [if_neg h0, if_neg h0, if_neg h1, if_neg h1]
        by_cases h2 : p.2 = st.idxAction <;> simp [h2]

/-- A user's command line. -/
def c52Args : List CStr :=
  [lit "-g", lit "-O2", lit "-x", lit "c", lit "-c", lit "-o", lit "foo.o", lit "src/foo.c", lit "-DX"]

/-- Its environment. -/
def c52Env : CcEnv := { realgcc := lit "gcc", removeArgs := [lit "-g"], appendArgs := [lit "-fno-x"] }

example : ccRun c52Env c52Args (lit "a.s") (lit "b.s") = some
    [[lit "gcc", lit "-O2", lit "-x", lit "c", lit "-S", lit "src/foo.c", lit "-DX", lit "-fno-x", lit "-o", lit "a.s"],
     [lit "gcc", lit "-O2", lit "-x", lit "assembler", lit "-c", lit "b.s", lit "-DX", lit "-fno-x", lit "-o", lit "foo.o"]] := by
  decide +kernel

example : (ccDecide c52Env c52Args).action = .compileSingle ∧ (ccDecide c52Env c52Args).idxInput = 8 ∧
    (ccDecide c52Env c52Args).idxAction = 5 ∧ (ccDecide c52Env c52Args).idxLang = 4 ∧
    (ccDecide c52Env c52Args).nulls = [7, 6] ∧ (ccDecide c52Env c52Args).output = some (lit "foo.o") := by
  refine ⟨?_, ?_, ?_, ?_, ?_, ?_⟩ <;> decide +kernel

-- the hypotheses of the theorem hold of it
example : ArgsOk c52Env.removeArgs ∧ ArgsOk c52Args ∧
    (∃ a, (a, (ccDecide c52Env c52Args).idxAction) ∈
      passedOn c52Env.removeArgs (ccDecide c52Env c52Args).nulls c52Args) ∧
    (∃ a, (a, (ccDecide c52Env c52Args).idxLang) ∈
      passedOn c52Env.removeArgs (ccDecide c52Env c52Args).nulls c52Args) := by
  have h1 : ArgsOk c52Env.removeArgs := by unfold ArgsOk; decide +kernel
  have h2 : ArgsOk c52Args := by unfold ArgsOk; decide +kernel
  refine ⟨h1, h2, ⟨lit "-c", ?_⟩, ⟨lit "c", ?_⟩⟩ <;>
    (rw [← passedOn_eq _ h1 (by simp [c52Env]) _ _ h2]; decide +kernel)

/-- An argument is only ever dropped if it is an option in the removal list or part of the output
specification, in whatever order the removal list is. -/
theorem C52_only_listed (e : CcEnv) (args : List CStr) (hR : ArgsOk e.removeArgs) (ha : ArgsOk args)
    (st : CcScan) (p : CStr × Nat) (hp : p ∈ positions args) (h1 : p.2 ∉ st.nulls)
    (h2 : ¬ (IsOption p.1 ∧ p.1 ∈ e.removeArgs)) :
    p.1 ∈ (ccModify e args st).1 := by
  unfold ccModify
  rw [ccCompact_eq]
  simp only [List.mem_append, List.mem_cons, List.mem_map]
  left; right
  refine ⟨p, ?_, rfl⟩
  unfold nullArgv
  rw [keptOf_nullify, List.mem_filter]
  refine ⟨hp, ?_⟩
  have hmem : p.1 ∈ args := by
    obtain ⟨a, k⟩ := p
    exact List.mem_of_getElem? (List.mk_mem_zipIdx_iff_le_and_getElem?_sub.1 hp).2
  have : ccRemoved e.removeArgs p.1 = false := by
    cases hc : ccRemoved e.removeArgs p.1 with
    | false => rfl
    | true => exact absurd (ccRemoved_sound _ _ hR (ha _ hmem) hc) h2
  simp [h1, this]

/-- **C52 is violated**: the removal list is sorted by comparing pointers instead of strings.  With
`KPCC_REMOVE_ARGS="-z;-a"` every arrangement `qsort` may produce by that comparison is one in which the
binary search does not find `-z`, which is then passed to the compiler. -/
theorem C52_violated_unsorted :
    ∃ (base : Nat), ∀ sorted : List (Nat × CStr), sorted.Perm (splitArgs (lit "-z;-a") base) →
      sorted.Pairwise (fun a b => cmpPointers a b ≤ 0) →
      lit "-z" ∈ sorted.map Prod.snd ∧
      lit "-z" ∈ (ccModify { realgcc := lit "gcc", removeArgs := sorted.map Prod.snd, appendArgs := [] }
        [lit "-z", lit "x.c"] { action := .compileSingle }).1 := by
  refine ⟨0x7ffe00001010, ?_⟩
  intro sorted hp hs
  have hsplit : splitArgs (lit "-z;-a") 0x7ffe00001010 = [(0x7ffe00001010, lit "-z"), (0x7ffe00001013, lit "-a")] := by
    decide +kernel
  rw [hsplit] at hp
  have hcmp : ¬ cmpPointers (0x7ffe00001013, lit "-a") (0x7ffe00001010, lit "-z") ≤ 0 := by decide +kernel
  have hlen : sorted.length = 2 := by simpa using hp.length_eq
  match sorted, hlen with
  | [a, b], _ =>
    have hab : cmpPointers a b ≤ 0 := by simpa using hs
    have ha : a = (0x7ffe00001010, lit "-z") ∨ a = (0x7ffe00001013, lit "-a") := by
      have := hp.mem_iff (a := a); simp at this; exact this
    have hmem1 := hp.mem_iff (a := ((0x7ffe00001010 : Nat), lit "-z"))
    have hmem2 := hp.mem_iff (a := ((0x7ffe00001013 : Nat), lit "-a"))
    have hne : ((0x7ffe00001010 : Nat), lit "-z") ≠ (0x7ffe00001013, lit "-a") := by simp
    rcases ha with rfl | rfl
    · have hb : b = (0x7ffe00001013, lit "-a") := by
        have := hmem2.2 (by simp)
        rcases List.mem_cons.1 this with h | h
        · exact absurd h.symm hne
        · exact (List.mem_singleton.1 h).symm
      subst hb
      refine ⟨by simp, ?_⟩
      decide +kernel
    · have hb : b = (0x7ffe00001010, lit "-z") := by
        have := hmem1.2 (by simp)
        rcases List.mem_cons.1 this with h | h
        · exact absurd h hne
        · exact (List.mem_singleton.1 h).symm
      subst hb
      exact absurd hab hcmp

/-- **C52 is violated**: without `-o` the wrapper makes the compiler write to a file of another name than
the compiler itself would (`foo.cpo` for `foo.cpp`). -/
theorem C52_violated_output_name :
    ccRun c52Env [lit "-c", lit "foo.cpp"] (lit "a.s") (lit "b.s") = some
      [[lit "gcc", lit "-S", lit "foo.cpp", lit "-fno-x", lit "-o", lit "a.s"],
       [lit "gcc", lit "-c", lit "b.s", lit "-fno-x", lit "-o", lit "foo.cpo"]] := by
  decide +kernel

end Verif
