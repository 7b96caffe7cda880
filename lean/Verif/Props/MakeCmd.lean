import Verif.Model.MakeCmd
import Verif.Proof.Getopt
import Verif.Props.PatchFile
/-
C99: the command `kpatch_make` does what its command line says, or nothing.
-/
namespace Verif

/-! ### Specification -/

/-- The options of `kpatch_make`: `d` without a value; `b`, `o`, `i`, `v` and `s` with one. -/
def makeSyntax : OptSyntax := ⟨[0x64#8], [0x62#8, 0x6f#8, 0x69#8, 0x76#8, 0x73#8], []⟩

/-! ### Proofs -/

theorem makeSyntax_ok : makeSyntax.Ok := ⟨by decide, by decide, by decide, by decide⟩

theorem makeSpec_agrees : Agrees makeSpec makeSyntax := by
  intro c
  simp [makeSpec, makeSyntax]

theorem makeLoop_ok {evs : List OptEv} {o o' : MakeOpts} (h : makeLoop evs o = .ok o') :
    o'.buildid.toList = o.buildid.toList ++ evVals 0x62#8 evs ∧ o'.output.toList = o.output.toList ++ evVals 0x6f#8 evs ∧
    o'.patchId.toList = o.patchId.toList ++ evVals 0x69#8 evs ∧ evVals 0x76#8 evs = [] ∧ evVals 0x73#8 evs = [] ∧ OptEv.bad ∉ evs := by
  induction evs generalizing o with
  | nil => cases h; simp [evVals]
  | cons e evs ih =>
    cases e with
    | bad => cases h
    | opt c arg =>
      rw [makeLoop] at h
      split at h
      · rename_i hc
        subst hc
        have := ih h
        simpa [evVals] using this
      split at h
      · rename_i hc
        subst hc
        split at h
        · cases h
        · rename_i hn
          have := ih h
          cases hb : o.buildid with
          | some x => rw [hb] at hn; simp at hn
          | none => simpa [evVals, hb] using this
      split at h
      · rename_i hc
        subst hc
        split at h
        · cases h
        · rename_i hn
          have := ih h
          cases hb : o.output with
          | some x => rw [hb] at hn; simp at hn
          | none => simpa [evVals, hb] using this
      split at h
      · rename_i hc
        subst hc
        split at h
        · cases h
        · rename_i hn
          have := ih h
          cases hb : o.patchId with
          | some x => rw [hb] at hn; simp at hn
          | none => simpa [evVals, hb] using this
      · cases h

theorem makeLoop_of {evs : List OptEv} {o : MakeOpts} (hopt : ∀ e ∈ evs, ∃ c v, e = .opt c v ∧ c ∈ [0x64#8, 0x62#8, 0x6f#8, 0x69#8])
    (h1 : (o.buildid.toList ++ evVals 0x62#8 evs).length ≤ 1) (h2 : (o.output.toList ++ evVals 0x6f#8 evs).length ≤ 1)
    (h3 : (o.patchId.toList ++ evVals 0x69#8 evs).length ≤ 1) : ∃ o', makeLoop evs o = .ok o' := by
  induction evs generalizing o with
  | nil => exact ⟨o, rfl⟩
  | cons e evs ih =>
    obtain ⟨c, v, rfl, hc⟩ := hopt e (by simp)
    have hopt' : ∀ e ∈ evs, ∃ c v, e = .opt c v ∧ c ∈ [0x64#8, 0x62#8, 0x6f#8, 0x69#8] := fun e he => hopt e (by simp [he])
    simp only [List.mem_cons, List.not_mem_nil, or_false] at hc
    rcases hc with rfl | rfl | rfl | rfl
    · rw [makeLoop, if_pos rfl]
      exact ih hopt' (by simpa [evVals] using h1) (by simpa [evVals] using h2) (by simpa [evVals] using h3)
    · have hn : o.buildid = none := by
        cases hb : o.buildid with
        | none => rfl
        | some x => simp [hb, evVals] at h1
      rw [makeLoop, if_neg (by decide), if_pos rfl, if_neg (by simp [hn])]
      exact ih hopt' (by simpa [evVals, hn] using h1) (by simpa [evVals] using h2) (by simpa [evVals] using h3)
    · have hn : o.output = none := by
        cases hb : o.output with
        | none => rfl
        | some x => simp [hb, evVals] at h2
      rw [makeLoop, if_neg (by decide), if_neg (by decide), if_pos rfl, if_neg (by simp [hn])]
      exact ih hopt' (by simpa [evVals] using h1) (by simpa [evVals, hn] using h2) (by simpa [evVals] using h3)
    · have hn : o.patchId = none := by
        cases hb : o.patchId with
        | none => rfl
        | some x => simp [hb, evVals] at h3
      rw [makeLoop, if_neg (by decide), if_neg (by decide), if_neg (by decide), if_pos rfl, if_neg (by simp [hn])]
      exact ih hopt' (by simpa [evVals] using h1) (by simpa [evVals] using h2) (by simpa [evVals, hn] using h3)

theorem makeLoop_error {evs : List OptEv} {o : MakeOpts} {st : Nat} (h : makeLoop evs o = .error st) : st ≠ 0 := by
  induction evs generalizing o with
  | nil => cases h
  | cons e evs ih =>
    cases e with
    | bad => cases h; decide
    | opt c arg =>
      rw [makeLoop] at h
      split at h
      · exact ih h
      split at h
      · split at h
        · cases h; decide
        · exact ih h
      split at h
      · split at h
        · cases h; decide
        · exact ih h
      split at h
      · split at h
        · cases h; decide
        · exact ih h
      · cases h; decide

/-- How far a valid command line gets: to the one call of `make_file`. -/
theorem makeMain_of {ps : List ArgPiece} {tail : CmdTail} (hv : ∀ p ∈ ps, p.Valid makeSyntax) (hu : Known ps tail)
    {bid pid input : List Byte} {ws : List (List Byte)} (hb : givenVals 0x62#8 ps = [bid]) (hi : givenVals 0x69#8 ps = [pid])
    (ho : (givenVals 0x6f#8 ps).length ≤ 1) (hpv : givenVals 0x76#8 ps = []) (hps : givenVals 0x73#8 ps = []) (hw : givenWords ps tail = input :: ws)
    : ∃ o, makeLoop (getopts makeSpec (cmdLine ps tail)).1 {} = .ok o ∧ o.buildid = some bid ∧ o.patchId = some pid ∧
        o.output.toList = givenVals 0x6f#8 ps ∧ (getopts makeSpec (cmdLine ps tail)).2 = input :: ws := by
  rw [getopts_cmdLine makeSpec_agrees makeSyntax_ok hv hu]
  have e1 := evVals_pieces (c := 0x62#8) (by decide) hv
  have e2 := evVals_pieces (c := 0x6f#8) (by decide) hv
  have e3 := evVals_pieces (c := 0x69#8) (by decide) hv
  obtain ⟨o, h⟩ := makeLoop_of (evs := ps.flatMap pieceEvs) (o := {}) (by
    intro e he
    obtain ⟨c, v, rfl, h⟩ := pieceEvs_opts hv he
    refine ⟨c, v, rfl, ?_⟩
    rcases h with h | ⟨h1, h2⟩
    · rw [show c = 0x64#8 by simpa [makeSyntax] using h]; simp
    · have h3 : c ≠ 0x76#8 := by rintro rfl; rw [hpv] at h1; cases h1
      have h4 : c ≠ 0x73#8 := by rintro rfl; rw [hps] at h1; cases h1
      simp only [makeSyntax, List.mem_cons, List.not_mem_nil, or_false] at h2 ⊢
      rcases h2 with h | h | h | h | h
      · exact Or.inr (Or.inl h)
      · exact Or.inr (Or.inr (Or.inl h))
      · exact Or.inr (Or.inr (Or.inr h))
      · exact absurd h h3
      · exact absurd h h4)
    (by simp [e1, hb]) (by simpa [e2] using ho) (by simp [e3, hi])
  obtain ⟨h1, h2, h3, -⟩ := makeLoop_ok h
  refine ⟨o, h, toList_one ?_, toList_one ?_, ?_, hw⟩
  · rw [h1, e1, hb]; rfl
  · rw [h3, e3, hi]; rfl
  · rw [h2, e2]; rfl

/-! ### Theorems -/

/-- C99: for every order and every way of writing the options: with one build id of forty bytes, one patch id of one to seven
bytes, one output, no option that does not exist, and an input that is a relocatable ELF file and not the output,
* no file other than the output is changed,
* if the kernel takes all bytes, the exit status is 0,
* if it is 0, the output is a patch file that the tool accepts, for this build id and with this id, and that holds the input. -/
theorem C99_made_partial {files : List Byte → Option (List Byte)} {canWrite : List Byte → Bool} {w1 w2 : WriteOracle} {time : Nat} {reread : List Byte}
    {ps : List ArgPiece} {tail : CmdTail} (hv : ∀ p ∈ ps, p.Valid makeSyntax) (hu : Known ps tail)
    {bid pid out input payload : List Byte} {ws : List (List Byte)} (hb : givenVals 0x62#8 ps = [bid]) (hi : givenVals 0x69#8 ps = [pid])
    (ho : givenVals 0x6f#8 ps = [out]) (hpv : givenVals 0x76#8 ps = []) (hps : givenVals 0x73#8 ps = []) (hw : givenWords ps tail = input :: ws)
    (hbl : bid.length = 40) (hb0 : 0#8 ∉ bid) (hp0 : pid ≠ []) (hpl : pid.length ≤ 7) (hpn : 0#8 ∉ pid)
    (hf : files input = some payload) (he : IsElfRel payload) (hsz : payload.length < 2 ^ 31) (hne : out ≠ input) (hcw : canWrite out = true) :
    let r := makeMain files canWrite w1 w2 time reread (cmdLine ps tail)
    (∀ n, n ≠ out → r.files n = files n) ∧ r.stdout = [] ∧
    ((∀ b, w1 b = some b.length) → (∀ b, w2 b = some b.length) → r.status = 0) ∧
    (r.status = 0 → ∃ file, r.files out = some file ∧ acceptFile file = true ∧ hdrBuildid file = bid ∧ hdrId file = pid ∧
      ∃ pad, pad < 16 ∧ (payload.length + pad) % 16 = 0 ∧ dumpElf file = some (payload ++ List.replicate pad 0)) := by
  obtain ⟨o, h1, h2, h3, h4, h5⟩ := makeMain_of (tail := tail) hv hu hb hi (by simp [ho]) hpv hps hw
  have h4' := toList_one (h4.trans ho)
  have hpe : payload ≠ [] := by
    intro e
    have := he.size
    rw [e] at this
    simp at this
  unfold makeMain
  simp only [h1, h2, h3, h4', h5, hf, hp0, hpe, hcw, hne, if_true, if_false]
  refine ⟨fun n hn => by simp [hn], trivial, fun hw1 hw2 => ?_, fun hst => ?_⟩
  · have : (makeFile w1 w2 bid pid time payload).2 = true := by
      have hl := makeHeader_length bid pid time (roundUp payload.length 16)
      have hr := le_roundUp payload.length 16 (by omega)
      unfold makeFile
      simp only [wroteRet, hw1, hw2, hl, hdrSize, decide_eq_true_eq, Nat.min_self, List.length_append, List.length_replicate]
      omega
    rw [if_pos this]
  · have hok : (makeFile w1 w2 bid pid time payload).2 = true := by
      cases hc : (makeFile w1 w2 bid pid time payload).2 with
      | true => rfl
      | false => rw [hc] at hst; simp at hst
    exact ⟨_, rfl, C34_payload_preserved w1 w2 bid pid time payload (by omega) hb0 hpl hpn he hsz hok⟩

/-- C99: with an unknown option, an option without its value or given twice, without build id, patch id or input, with an empty patch id, or with an
input that cannot be read or is empty, the exit status is not 0, and nothing is written. -/
theorem C99_refused {files : List Byte → Option (List Byte)} {canWrite : List Byte → Bool} {w1 w2 : WriteOracle} {time : Nat} {reread : List Byte}
    {ps : List ArgPiece} {tail : CmdTail} (hv : ∀ p ∈ ps, p.Valid makeSyntax) (ht : tail.Valid makeSyntax)
    (hno : ¬ (Known ps tail ∧ givenVals 0x76#8 ps = [] ∧ givenVals 0x73#8 ps = [] ∧ (givenVals 0x6f#8 ps).length ≤ 1 ∧
      ∃ bid pid input ws payload, givenVals 0x62#8 ps = [bid] ∧ givenVals 0x69#8 ps = [pid] ∧ pid ≠ [] ∧ givenWords ps tail = input :: ws ∧
        files input = some payload ∧ payload ≠ [])) :
    let r := makeMain files canWrite w1 w2 time reread (cmdLine ps tail)
    r.status ≠ 0 ∧ r.files = files ∧ r.stdout = [] := by
  intro r
  have hr : r = makeMain files canWrite w1 w2 time reread (cmdLine ps tail) := rfl
  clear_value r
  unfold makeMain at hr
  dsimp only at hr
  split at hr
  · rename_i st h
    subst hr
    exact ⟨makeLoop_error h, rfl, rfl⟩
  rename_i o h
  obtain ⟨h1, h2, h3, h4, h5, h6⟩ := makeLoop_ok h
  have hu : Known ps tail := by
    by_cases hk : Known ps tail
    · exact hk
    · exact absurd (getopts_bad makeSpec_agrees makeSyntax_ok hv ht hk) h6
  rw [getopts_cmdLine makeSpec_agrees makeSyntax_ok hv hu] at hr h1 h2 h3 h4 h5
  rw [evVals_pieces (by decide) hv] at h1 h2 h3 h4 h5
  split at hr
  · rename_i bid pid input ws hb hi hw
    split at hr
    · subst hr; exact ⟨by simp, rfl, rfl⟩
    rename_i hp
    split at hr
    · subst hr; exact ⟨by simp, rfl, rfl⟩
    rename_i payload hf
    split at hr
    · subst hr; exact ⟨by simp, rfl, rfl⟩
    rename_i hpe
    refine absurd ⟨hu, h4, h5, ?_, bid, pid, input, ws, payload, ?_, ?_, hp, hw, hf, hpe⟩ hno
    · have : (givenVals 0x6f#8 ps) = o.output.toList := by simpa using h2.symm
      rw [this]
      cases o.output <;> simp
    · rw [hb] at h1; simpa using h1.symm
    · rw [hi] at h3; simpa using h3.symm
  · subst hr; exact ⟨by simp, rfl, rfl⟩

/-- C99: without an output the patch file goes to the standard output, and no file is changed. -/
theorem C99_stdout_partial {files : List Byte → Option (List Byte)} {canWrite : List Byte → Bool} {w1 w2 : WriteOracle} {time : Nat} {reread : List Byte}
    {ps : List ArgPiece} {tail : CmdTail} (hv : ∀ p ∈ ps, p.Valid makeSyntax) (hu : Known ps tail)
    {bid pid input payload : List Byte} {ws : List (List Byte)} (hb : givenVals 0x62#8 ps = [bid]) (hi : givenVals 0x69#8 ps = [pid])
    (ho : givenVals 0x6f#8 ps = []) (hpv : givenVals 0x76#8 ps = []) (hps : givenVals 0x73#8 ps = []) (hw : givenWords ps tail = input :: ws)
    (hbl : bid.length = 40) (hb0 : 0#8 ∉ bid) (hp0 : pid ≠ []) (hpl : pid.length ≤ 7) (hpn : 0#8 ∉ pid)
    (hf : files input = some payload) (he : IsElfRel payload) (hsz : payload.length < 2 ^ 31) :
    let r := makeMain files canWrite w1 w2 time reread (cmdLine ps tail)
    r.files = files ∧ ((∀ b, w1 b = some b.length) → (∀ b, w2 b = some b.length) → r.status = 0) ∧
    (r.status = 0 → acceptFile r.stdout = true ∧ hdrBuildid r.stdout = bid ∧ hdrId r.stdout = pid ∧
      ∃ pad, pad < 16 ∧ (payload.length + pad) % 16 = 0 ∧ dumpElf r.stdout = some (payload ++ List.replicate pad 0)) := by
  obtain ⟨o, h1, h2, h3, h4, h5⟩ := makeMain_of (tail := tail) hv hu hb hi (by simp [ho]) hpv hps hw
  have h4' : o.output = none := by
    rw [ho] at h4
    cases hc : o.output with
    | none => rfl
    | some x => rw [hc] at h4; cases h4
  have hpe : payload ≠ [] := by
    intro e
    have := he.size
    rw [e] at this
    simp at this
  unfold makeMain
  simp only [h1, h2, h3, h4', h5, hf, hp0, hpe, if_false]
  refine ⟨trivial, fun hw1 hw2 => ?_, fun hst => ?_⟩
  · have : (makeFile w1 w2 bid pid time payload).2 = true := by
      have hl := makeHeader_length bid pid time (roundUp payload.length 16)
      have hr := le_roundUp payload.length 16 (by omega)
      unfold makeFile
      simp only [wroteRet, hw1, hw2, hl, hdrSize, decide_eq_true_eq, Nat.min_self, List.length_append, List.length_replicate]
      omega
    rw [if_pos this]
  · have hok : (makeFile w1 w2 bid pid time payload).2 = true := by
      cases hc : (makeFile w1 w2 bid pid time payload).2 with
      | true => rfl
      | false => rw [hc] at hst; simp at hst
    exact C34_payload_preserved w1 w2 bid pid time payload (by omega) hb0 hpl hpn he hsz hok

/-- C99: whatever else is on the command line, an output that cannot be opened is reported, and nothing is written. -/
theorem C99_unwritable {files : List Byte → Option (List Byte)} {canWrite : List Byte → Bool} {w1 w2 : WriteOracle} {time : Nat} {reread : List Byte}
    {ps : List ArgPiece} {tail : CmdTail} (hv : ∀ p ∈ ps, p.Valid makeSyntax) (ht : tail.Valid makeSyntax) {out : List Byte} (ho : out ∈ givenVals 0x6f#8 ps)
    (hcw : canWrite out = false) :
    let r := makeMain files canWrite w1 w2 time reread (cmdLine ps tail)
    r.status ≠ 0 ∧ r.files = files ∧ r.stdout = [] := by
  by_cases hc : Known ps tail ∧ givenVals 0x76#8 ps = [] ∧ givenVals 0x73#8 ps = [] ∧ (givenVals 0x6f#8 ps).length ≤ 1 ∧
      ∃ bid pid input ws payload, givenVals 0x62#8 ps = [bid] ∧ givenVals 0x69#8 ps = [pid] ∧ pid ≠ [] ∧ givenWords ps tail = input :: ws ∧
        files input = some payload ∧ payload ≠ []
  · obtain ⟨hu, hpv, hps, hl, bid, pid, input, ws, payload, hb, hi, hp0, hw, hf, hpe⟩ := hc
    obtain ⟨o, h1, h2, h3, h4, h5⟩ := makeMain_of (tail := tail) hv hu hb hi hl hpv hps hw
    have hone : givenVals 0x6f#8 ps = [out] := by
      cases hg : givenVals 0x6f#8 ps with
      | nil => rw [hg] at ho; cases ho
      | cons x xs =>
        rw [hg] at ho hl
        cases xs with
        | nil => simp at ho; rw [ho]
        | cons => simp at hl
    have h4' := toList_one (h4.trans hone)
    unfold makeMain
    simp [h1, h2, h3, h4', h5, hf, hp0, hpe, hcw]
  · exact C99_refused hv ht hc

/-- C99 is violated: a build id that is too long is reported, but the file is made nevertheless, for the build id that its first
forty bytes are. -/
theorem C99_violated_buildid (bid : List Byte) (hl : 40 < bid.length) (hb0 : 0#8 ∉ bid) {files : List Byte → Option (List Byte)}
    {payload : List Byte} (hf : files [0x61] = some payload) (hp : payload ≠ []) (time : Nat) :
    let r := makeMain files (fun _ => true) (fun b => some b.length) (fun b => some b.length) time []
      [[0x2d, 0x62], bid, [0x2d, 0x69], [0x30], [0x61], [0x2d, 0x6f], [0x62]]
    r.status = 0 ∧ ∃ file, r.files [0x62] = some file ∧ hdrBuildid file = bid.take 40 ∧ hdrBuildid file ≠ bid := by
  have e : [[0x2d, 0x62], bid, [0x2d, 0x69], [0x30], [0x61], [0x2d, 0x6f], [0x62]] =
      cmdLine [.sep [] 0x62 bid, .sep [] 0x69 [0x30], .word [0x61], .sep [] 0x6f [0x62]] .nothing := by rfl
  obtain ⟨o, h1, h2, h3, h4, h5⟩ := makeMain_of (tail := .nothing) (ps := [.sep [] 0x62 bid, .sep [] 0x69 [0x30], .word [0x61], .sep [] 0x6f [0x62]])
    (bid := bid) (pid := [0x30]) (input := [0x61]) (ws := [])
    (by simp [ArgPiece.Valid, makeSyntax]) (by simp [Known]) (by simp [givenVals]) (by simp [givenVals]) (by simp [givenVals]) (by simp [givenVals]) (by simp [givenVals]) (by simp [givenWords])
  have h4' : o.output = some [0x62] := toList_one (h4.trans (by simp [givenVals]))
  have hok : (makeFile (fun b => some b.length) (fun b => some b.length) bid [0x30] time payload).2 = true := by
    have hl := makeHeader_length bid [0x30] time (roundUp payload.length 16)
    have hr := le_roundUp payload.length 16 (by omega)
    unfold makeFile
    simp only [wroteRet, hl, hdrSize, decide_eq_true_eq, Nat.min_self, List.length_append, List.length_replicate]
    omega
  have hid : hdrBuildid (makeFile (fun b => some b.length) (fun b => some b.length) bid [0x30] time payload).1 = bid.take 40 := by
    rw [makeFile_ok hok, hdrBuildid]
    obtain ⟨-, -, f3, -⟩ := makeHeader_fields bid [0x30] time (roundUp payload.length 16)
      (payload ++ List.replicate (roundUp payload.length 16 - payload.length) 0)
    rw [f3, cstr_strField 41 bid (by omega) hb0]
  rw [e]
  unfold makeMain
  have hne : ([0x62] : List Byte) ≠ [0x61] := by decide
  simp only [h1, h2, h3, h4', h5, hf, hp, hne, hok, if_true, if_false]
  refine ⟨by simp, _, by simp, hid, ?_⟩
  rw [hid]
  intro h
  have := congrArg List.length h
  simp at this
  omega

/-- C99 is violated: if the output is the input, the input is lost: it begins with the header of a patch afterwards, whatever it
was before. -/
theorem C99_violated_same_file {files : List Byte → Option (List Byte)} {payload : List Byte} (hf : files [0x61] = some payload)
    (hp : payload ≠ []) (w2 : WriteOracle) (time : Nat) (reread : List Byte) :
    let r := makeMain files (fun _ => true) (fun b => some b.length) w2 time reread
      [[0x2d, 0x62], [0x30], [0x2d, 0x69], [0x30], [0x61], [0x2d, 0x6f], [0x61]]
    ∃ file, r.files [0x61] = some file ∧ file.take 8 = kpatchMagic := by
  have e : ([[0x2d, 0x62], [0x30], [0x2d, 0x69], [0x30], [0x61], [0x2d, 0x6f], [0x61]] : List (List Byte)) =
      cmdLine [.sep [] 0x62 [0x30], .sep [] 0x69 [0x30], .word [0x61], .sep [] 0x6f [0x61]] .nothing := by rfl
  obtain ⟨o, h1, h2, h3, h4, h5⟩ := makeMain_of (tail := .nothing) (ps := [.sep [] 0x62 [0x30], .sep [] 0x69 [0x30], .word [0x61], .sep [] 0x6f [0x61]])
    (bid := [0x30]) (pid := [0x30]) (input := [0x61]) (ws := [])
    (by simp [ArgPiece.Valid, makeSyntax]) (by simp [Known]) (by simp [givenVals]) (by simp [givenVals]) (by simp [givenVals]) (by simp [givenVals]) (by simp [givenVals]) (by simp [givenWords])
  have h4' : o.output = some [0x61] := toList_one (h4.trans (by simp [givenVals]))
  rw [e]
  unfold makeMain
  simp only [h1, h2, h3, h4', h5, hf, hp, if_true, if_false]
  refine ⟨_, by simp; rfl, ?_⟩
  unfold makeFile
  simp only [wrote, Option.getD_some, List.take_length]
  exact (makeHeader_fields _ _ _ _ _).1

/-- C99 is violated: when the input cannot be written completely, the exit status is not 0, but a cut file is left under the name of
the output: here only the header. -/
theorem C99_violated_cut :
    let files : List Byte → Option (List Byte) := fun n => if n = [0x61] then some exPayload else none
    let r := makeMain files (fun _ => true) (fun b => some b.length) (fun _ => none) 5 []
      [[0x2d, 0x62], [0x30], [0x2d, 0x69], [0x30], [0x61], [0x2d, 0x6f], [0x62]]
    r.status ≠ 0 ∧ files [0x62] = none ∧ (r.files [0x62]).map List.length = some 504 := by
  decide +kernel

/-! ### Concrete cases -/

/-- A build id. -/
def exBid : List Byte := List.replicate 20 0x61#8 ++ List.replicate 20 0x62#8

/-- As `libcare-patch-make` calls it: `kpatch_make -b BID -i 0001 a -o b`. -/
example :
    let r := makeMain (fun n => if n = [0x61] then some exPayload else none) (fun _ => true) (fun b => some b.length) (fun b => some b.length) 5 []
      (cmdLine [.sep [] 0x62 exBid, .sep [] 0x69 [0x30, 0x30, 0x30, 0x31], .word [0x61], .sep [] 0x6f [0x62]] .nothing)
    r.status = 0 ∧ ∃ file, r.files [0x62] = some file ∧ hdrBuildid file = exBid := by
  have h := C99_made_partial (files := fun n => if n = [0x61] then some exPayload else none) (canWrite := fun _ => true)
    (w1 := fun b => some b.length) (w2 := fun b => some b.length) (time := 5) (reread := []) (tail := .nothing)
    (ps := [.sep [] 0x62 exBid, .sep [] 0x69 [0x30, 0x30, 0x30, 0x31], .word [0x61], .sep [] 0x6f [0x62]])
    (bid := exBid) (pid := [0x30, 0x30, 0x30, 0x31]) (out := [0x62]) (input := [0x61]) (payload := exPayload) (ws := [])
    (by simp [ArgPiece.Valid, makeSyntax]) (by simp [Known]) (by simp [givenVals]) (by simp [givenVals]) (by simp [givenVals]) (by simp [givenVals]) (by simp [givenVals])
    (by simp [givenWords]) (by decide) (by decide) (by decide) (by decide) (by decide) (by simp)
    ⟨by decide +kernel, by decide +kernel, by decide +kernel, by decide +kernel⟩ (by decide +kernel) (by decide) rfl
  have hst := h.2.2.1 (fun _ => rfl) (fun _ => rfl)
  obtain ⟨file, h1, -, h2, -⟩ := h.2.2.2 hst
  exact ⟨hst, file, h1, h2⟩

/-- `kpatch_make a -ibug1 -dbBID`: to the standard output. -/
example :
    let r := makeMain (fun n => if n = [0x61] then some exPayload else none) (fun _ => false) (fun b => some b.length) (fun b => some b.length) 5 []
      (cmdLine [.word [0x61], .glued [] 0x69 [0x62, 0x75, 0x67, 0x31], .glued [0x64] 0x62 exBid] .nothing)
    r.status = 0 ∧ hdrId r.stdout = [0x62, 0x75, 0x67, 0x31] := by
  have h := C99_stdout_partial (files := fun n => if n = [0x61] then some exPayload else none) (canWrite := fun _ => false)
    (w1 := fun b => some b.length) (w2 := fun b => some b.length) (time := 5) (reread := []) (tail := .nothing)
    (ps := [.word [0x61], .glued [] 0x69 [0x62, 0x75, 0x67, 0x31], .glued [0x64] 0x62 exBid])
    (bid := exBid) (pid := [0x62, 0x75, 0x67, 0x31]) (input := [0x61]) (payload := exPayload) (ws := [])
    (by simp [ArgPiece.Valid, makeSyntax, exBid, List.replicate_succ]) (by simp [Known]) (by simp [givenVals]) (by simp [givenVals]) (by simp [givenVals]) (by simp [givenVals]) (by simp [givenVals])
    (by simp [givenWords]) (by decide) (by decide) (by decide) (by decide) (by decide) (by simp)
    ⟨by decide +kernel, by decide +kernel, by decide +kernel, by decide +kernel⟩ (by decide +kernel)
  have hst := h.2.1 (fun _ => rfl) (fun _ => rfl)
  exact ⟨hst, (h.2.2 hst).2.2.1⟩

/-- `kpatch_make -o b` and nothing else, where `b` cannot be opened. -/
example (files : List Byte → Option (List Byte)) :
    (makeMain files (fun _ => false) (fun b => some b.length) (fun b => some b.length) 5 [] (cmdLine [.sep [] 0x6f [0x62]] .nothing)).status ≠ 0 :=
  (C99_unwritable (tail := .nothing) (out := [0x62]) (by simp [ArgPiece.Valid, makeSyntax]) trivial (by simp [givenVals]) rfl).1

/-- `kpatch_make -ddb x -b y -i 1 -- -a`: the build id is given twice. -/
example (files : List Byte → Option (List Byte)) :
    let r := makeMain files (fun _ => true) (fun b => some b.length) (fun b => some b.length) 5 []
      [[0x2d, 0x64, 0x64, 0x62], [0x78], [0x2d, 0x62, 0x79], [0x2d, 0x69], [0x31], [0x2d, 0x2d], [0x2d, 0x61]]
    r.status ≠ 0 ∧ r.files = files ∧ r.stdout = [] :=
  C99_refused (ps := [.sep [0x64, 0x64] 0x62 [0x78], .glued [] 0x62 [0x79], .sep [] 0x69 [0x31]]) (tail := .words [[0x2d, 0x61]])
    (by simp [ArgPiece.Valid, makeSyntax]) trivial (by simp [givenVals])

end Verif
