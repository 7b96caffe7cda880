import Verif.Model.DumpCmd
import Verif.Props.MakeCmd
/-
C100: the command `libcare-dump` shows what a patch was made with and gives back what it was made from.
-/
namespace Verif

/-! ### Specification -/

/-- The options of `libcare-dump`: `i` and `o` with a value, `H` and `c` with an optional one. -/
def dumpSyntax : OptSyntax := ⟨[], [0x69#8, 0x6f#8], [0x48#8, 0x63#8]⟩

/-! ### Proofs -/

theorem dumpSyntax_ok : dumpSyntax.Ok := ⟨by decide, by decide, by decide, by decide⟩

theorem dumpSpec_agrees : Agrees dumpSpec dumpSyntax := by
  intro c
  simp [dumpSpec, dumpSyntax]

theorem getLast?_or {α : Type} (a : Option α) (b : α) (l : List α) : (b :: l).getLast?.or a = l.getLast?.or (some b) := by
  rw [List.getLast?_cons]
  cases h : l.getLast? <;> simp

theorem dumpLoop_some {evs : List OptEv} {o o' : DumpOpts} (h : dumpLoop evs o = some o') :
    o'.input = (evVals 0x69#8 evs).getLast?.or o.input ∧ o'.output = (evVals 0x6f#8 evs).getLast?.or o.output ∧
    (o'.header = true ↔ o.header = true ∨ evVals 0x48#8 evs ≠ []) ∧ (o'.convert = true ↔ o.convert = true ∨ evVals 0x63#8 evs ≠ []) ∧
    OptEv.bad ∉ evs := by
  induction evs generalizing o with
  | nil => cases h; simp [evVals]
  | cons e evs ih =>
    cases e with
    | bad => cases h
    | opt c arg =>
      rw [dumpLoop] at h
      split at h
      · rename_i hc
        subst hc
        simpa [evVals] using ih h
      split at h
      · rename_i hc
        subst hc
        have := ih h
        have e : evVals 0x69#8 (.opt 0x69#8 arg :: evs) = arg :: evVals 0x69#8 evs := by simp [evVals]
        rw [e, getLast?_or]
        simpa [evVals] using this
      split at h
      · rename_i hc
        subst hc
        have := ih h
        have e : evVals 0x6f#8 (.opt 0x6f#8 arg :: evs) = arg :: evVals 0x6f#8 evs := by simp [evVals]
        rw [e, getLast?_or]
        simpa [evVals] using this
      split at h
      · rename_i hc
        subst hc
        simpa [evVals] using ih h
      · cases h

theorem dumpLoop_of {evs : List OptEv} {o : DumpOpts} (hopt : ∀ e ∈ evs, ∃ c v, e = .opt c v ∧ c ∈ [0x48#8, 0x69#8, 0x6f#8, 0x63#8]) :
    ∃ o', dumpLoop evs o = some o' := by
  induction evs generalizing o with
  | nil => exact ⟨o, rfl⟩
  | cons e evs ih =>
    obtain ⟨c, v, rfl, hc⟩ := hopt e (by simp)
    have ih' := fun o => ih (o := o) fun e he => hopt e (by simp [he])
    simp only [List.mem_cons, List.not_mem_nil, or_false] at hc
    rcases hc with rfl | rfl | rfl | rfl
    all_goals
      rw [dumpLoop]
      simp only [if_pos, reduceCtorEq, ↓reduceIte, BitVec.reduceEq]
      exact ih' _

/-- The options of a known command line. -/
theorem dumpLoop_known {ps : List ArgPiece} {tail : CmdTail} (hv : ∀ p ∈ ps, p.Valid dumpSyntax) (hk : Known ps tail) :
    ∃ o, dumpLoop (getopts dumpSpec (cmdLine ps tail)).1 {} = some o ∧ o.input = (givenVals 0x69#8 ps).getLast? ∧
      o.output = (givenVals 0x6f#8 ps).getLast? ∧ (o.header = true ↔ givenVals 0x48#8 ps ≠ []) ∧ (o.convert = true ↔ givenVals 0x63#8 ps ≠ []) := by
  rw [getopts_cmdLine dumpSpec_agrees dumpSyntax_ok hv hk]
  obtain ⟨o, h⟩ := dumpLoop_of (evs := ps.flatMap pieceEvs) (o := {}) (by
    intro e he
    obtain ⟨c, v, rfl, h⟩ := pieceEvs_opts hv he
    refine ⟨c, v, rfl, ?_⟩
    simp only [dumpSyntax, List.mem_cons, List.not_mem_nil, or_false, false_or] at h ⊢
    obtain ⟨-, (h | h) | (h | h)⟩ := h
    · exact Or.inr (Or.inl h)
    · exact Or.inr (Or.inr (Or.inl h))
    · exact Or.inl h
    · exact Or.inr (Or.inr (Or.inr h)))
  obtain ⟨h1, h2, h3, h4, -⟩ := dumpLoop_some h
  rw [evVals_pieces (S := dumpSyntax) (by decide) hv] at h1 h2 h3 h4
  exact ⟨o, h, by simpa using h1, by simpa using h2, by simpa using h3, by simpa using h4⟩

theorem cstr_app_of_mem {a : List Byte} (h : 0#8 ∈ a) (b : List Byte) : cstr (a ++ b) = cstr a := by
  induction a with
  | nil => cases h
  | cons x a ih =>
    unfold cstr at ih ⊢
    rw [List.cons_append, List.takeWhile_cons, List.takeWhile_cons]
    by_cases hx : x = 0#8
    · subst hx; rfl
    · rw [ih ((List.mem_cons.1 h).resolve_left (Ne.symm hx))]

theorem cstr_self {a : List Byte} (h : 0#8 ∉ a) : cstr a = a := by
  induction a with
  | nil => rfl
  | cons x a ih =>
    unfold cstr at ih ⊢
    rw [List.takeWhile_cons, ih fun hx => h (by simp [hx]), if_pos]
    simp only [bne_iff_ne, ne_eq]
    rintro rfl
    exact h (by simp)

theorem headerStr_field {f : List Byte} {off n : Nat} (hn : off + n ≤ 504) (hz : 0#8 ∈ (f.drop off).take n) :
    headerStr f off = some (cstr ((f.drop off).take n)) := by
  have e : (f.take hdrSize).drop off = (f.drop off).take n ++ ((f.drop off).drop n).take (504 - off - n) := by
    rw [List.drop_take, ← List.take_add]
    congr 1
    simp only [hdrSize]
    omega
  unfold headerStr
  rw [e]
  dsimp only
  rw [if_pos (List.mem_append_left _ hz), cstr_app_of_mem hz]

/-! ### Theorems -/

/-- C100: with `-c`, without `-H`, and the last input and output given being `input` and `output`, for a file with an ELF object
behind its header: no file but the output is changed, and when the exit status is 0, which it is if the kernel takes all bytes,
the output is that object. -/
theorem C100_converted_partial {files : List Byte → Option (List Byte)} {canWrite : List Byte → Bool} {w : WriteOracle} {ps : List ArgPiece}
    {tail : CmdTail} (hv : ∀ p ∈ ps, p.Valid dumpSyntax) (hk : Known ps tail) (hc : givenVals 0x63#8 ps ≠ []) (hH : givenVals 0x48#8 ps = [])
    {input output f : List Byte} (hi : (givenVals 0x69#8 ps).getLast? = some input) (ho : (givenVals 0x6f#8 ps).getLast? = some output)
    (hf : files input = some f) (hl : 504 < f.length) (hm : (f.drop 504).take 4 = [0x7f, 0x45, 0x4c, 0x46]) (hne : output ≠ input)
    (hcw : canWrite output = true) :
    let r := dumpMain files canWrite w (cmdLine ps tail)
    (∀ n, n ≠ output → r.files n = files n) ∧ ((∀ b, w b = some b.length) → r.status = 0) ∧
    (r.status = 0 → r.files output = some (f.drop 504)) := by
  obtain ⟨o, h1, h2, h3, h4, h5⟩ := dumpLoop_known hv hk
  have hh : o.header = false := by
    cases hc : o.header with
    | false => rfl
    | true => exact absurd hH (h4.1 hc)
  have hd : dumpElf f = some (f.drop 504) := by
    unfold dumpElf
    rw [if_neg (by simp only [hdrSize]; omega), if_neg (by simp only [hdrSize]; simpa [elfMagic] using hm)]
    rfl
  unfold dumpMain
  simp only [h1, h2, h3, hi, ho, hh, h5.2 hc, Bool.false_eq_true, if_false, if_true]
  unfold convertToElf
  simp only [hf, hd, hcw, hne, if_true, if_false]
  refine ⟨fun n hn => by simp [hn], fun hw => by simp [wroteRet, hw], fun hst => ?_⟩
  generalize f.drop 504 = elf at *
  by_cases hw : wroteRet w elf = (elf.length : Int)
  · unfold wrote
    unfold wroteRet at hw
    cases hx : w elf with
    | none => rw [hx] at hw; dsimp only at hw; omega
    | some k =>
      rw [hx] at hw
      dsimp only at hw
      simp only [Option.getD_some]
      rw [List.take_of_length_le (by omega)]
  · rw [if_neg hw] at hst
    cases hst

/-- C100: with `-H`, and the last input given being `input`: no file is changed; for a file of at least the length of a header and
one byte the exit status is 0, and if the fields for the id and the build id end with NUL, these are shown. -/
theorem C100_header {files : List Byte → Option (List Byte)} {canWrite : List Byte → Bool} {w : WriteOracle} {ps : List ArgPiece}
    {tail : CmdTail} (hv : ∀ p ∈ ps, p.Valid dumpSyntax) (hk : Known ps tail) (hH : givenVals 0x48#8 ps ≠ [])
    {input f : List Byte} (hi : (givenVals 0x69#8 ps).getLast? = some input) (hf : files input = some f) (hl : 504 < f.length) 
    (hm : f.take 8 = kpatchMagic) (hz1 : 0#8 ∈ (f.drop 8).take 8) (hz2 : 0#8 ∈ (f.drop 88).take 41) :
    let r := dumpMain files canWrite w (cmdLine ps tail)
    r.files = files ∧ r.status = 0 ∧ r.out = .header input [0x4b, 0x50, 0x41, 0x54, 0x43, 0x48, 0x31] (hdrId f) (hdrBuildid f) := by
  obtain ⟨o, h1, h2, h3, h4, h5⟩ := dumpLoop_known hv hk
  have g0 : headerStr f 0 = some [0x4b, 0x50, 0x41, 0x54, 0x43, 0x48, 0x31] := by
    rw [headerStr_field (n := 8) (by omega) (by rw [List.drop_zero, hm]; decide), List.drop_zero, hm]
    rfl
  have g1 := headerStr_field (f := f) (off := 8) (n := 8) (by omega) hz1
  have g2 := headerStr_field (f := f) (off := 88) (n := 41) (by omega) hz2
  unfold dumpMain
  simp only [h1, h2, hi, h4.2 hH, if_true]
  unfold dumpHeader
  rw [hf]
  dsimp only
  rw [if_neg (by simp only [hdrSize]; omega), g0, g1, g2]
  exact ⟨trivial, rfl, rfl⟩

/-- C100: whatever a successful `kpatch_make` left under the name of its output, `libcare-dump` shows the ids it was made with, and
gives back the object it was made from, with at most fifteen zero bytes more. -/
theorem C100_roundtrip_partial {files : List Byte → Option (List Byte)} {canWrite : List Byte → Bool} {w1 w2 w : WriteOracle} {time : Nat} {reread : List Byte}
    {ps : List ArgPiece} {tail : CmdTail} (hv : ∀ p ∈ ps, p.Valid makeSyntax) (hu : Known ps tail)
    {bid pid out input payload : List Byte} {ws : List (List Byte)} (hb : givenVals 0x62#8 ps = [bid]) (hi : givenVals 0x69#8 ps = [pid])
    (ho : givenVals 0x6f#8 ps = [out]) (hpv : givenVals 0x76#8 ps = []) (hps : givenVals 0x73#8 ps = []) (hw : givenWords ps tail = input :: ws)
    (hbl : bid.length = 40) (hb0 : 0#8 ∉ bid) (hp0 : pid ≠ []) (hpl : pid.length ≤ 7) (hpn : 0#8 ∉ pid)
    (hf : files input = some payload) (he : IsElfRel payload) (hsz : payload.length < 2 ^ 31) (hne : out ≠ input) (hcw : canWrite out = true)
    (hst : (makeMain files canWrite w1 w2 time reread (cmdLine ps tail)).status = 0) :
    let fs := (makeMain files canWrite w1 w2 time reread (cmdLine ps tail)).files
    (let r := dumpMain fs canWrite w [[0x2d#8, 0x48#8], [0x2d#8, 0x69#8], out]
     r.files = fs ∧ r.status = 0 ∧ r.out = .header out [0x4b, 0x50, 0x41, 0x54, 0x43, 0x48, 0x31] pid bid) ∧
    ∀ elf, elf ≠ out → canWrite elf = true →
      (let r := dumpMain fs canWrite w [[0x2d#8, 0x63#8], [0x2d#8, 0x69#8], out, [0x2d#8, 0x6f#8], elf]
       (∀ n, n ≠ elf → r.files n = fs n) ∧ ((∀ b, w b = some b.length) → r.status = 0) ∧
       (r.status = 0 → ∃ pad, pad < 16 ∧ (payload.length + pad) % 16 = 0 ∧ r.files elf = some (payload ++ List.replicate pad 0))) := by
  obtain ⟨-, -, -, h4⟩ := C99_made_partial (w1 := w1) (w2 := w2) (time := time) (reread := reread) hv hu hb hi ho hpv hps hw hbl hb0 hp0 hpl hpn hf he hsz hne hcw
  obtain ⟨file, hfile, hacc, hbid, hid, pad, hpad, hpm, hd⟩ := h4 hst
  dsimp only
  generalize (makeMain files canWrite w1 w2 time reread (cmdLine ps tail)).files = fs at *
  have hl : 504 < file.length ∧ (file.drop 504).take 4 = [0x7f, 0x45, 0x4c, 0x46] ∧ file.drop 504 = payload ++ List.replicate pad 0 := by
    unfold dumpElf at hd
    split at hd
    · cases hd
    rename_i h1
    split at hd
    · cases hd
    rename_i h2
    simp only [hdrSize] at h1 h2 hd
    exact ⟨by omega, by simpa [elfMagic] using h2, Option.some.inj hd⟩
  have hmag : file.take 8 = kpatchMagic := by
    unfold acceptFile at hacc
    rw [if_neg (by simp only [hdrSize]; omega)] at hacc
    split at hacc
    · cases hacc
    rename_i h
    simpa using h
  have hz : ∀ {l s : List Byte} {n : Nat}, cstr l = s → l.length = n → s.length < n → 0#8 ∈ l := by
    intro l s n h1 h2 h3
    by_cases hm : 0#8 ∈ l
    · exact hm
    · rw [cstr_self hm] at h1
      subst h1
      omega
  have hz1 : 0#8 ∈ (file.drop 8).take 8 := hz hid (n := 8) (by simp [kpId]; omega) (by omega)
  have hz2 : 0#8 ∈ (file.drop 88).take 41 := hz hbid (n := 41) (by simp; omega) (by omega)
  refine ⟨?_, fun elf hne' hcw' => ?_⟩
  · have := C100_header (canWrite := canWrite) (w := w) (ps := [.maybe [] 0x48#8 [], .sep [] 0x69#8 out]) (tail := .nothing) (files := fs) (input := out) (f := file)
      (by simp [ArgPiece.Valid, dumpSyntax]) (by simp [Known]) (by simp [givenVals]) (by simp [givenVals]) hfile hl.1 hmag hz1 hz2
    rw [hid, hbid] at this
    exact this
  · have := C100_converted_partial (canWrite := canWrite) (w := w) (ps := [.maybe [] 0x63#8 [], .sep [] 0x69#8 out, .sep [] 0x6f#8 elf]) (tail := .nothing)
      (files := fs) (input := out) (output := elf) (f := file) (by simp [ArgPiece.Valid, dumpSyntax]) (by simp [Known]) (by simp [givenVals]) (by simp [givenVals])
      (by simp [givenVals]) (by simp [givenVals]) hfile hl.1 hl.2.1 hne' hcw'
    exact ⟨this.1, this.2.1, fun h => ⟨pad, hpad, hpm, (this.2.2 h).trans (by rw [hl.2.2])⟩⟩

/-- C100: with an unknown option or an option without its value, without an input, with neither `-H` nor both `-c` and an output,
with an input that cannot be read or is not longer than a header, and for `-c` with an input without an ELF object behind the
header or an output that cannot be opened: the exit status is not 0, nothing is printed but messages, and no file is changed. -/
theorem C100_refused {files : List Byte → Option (List Byte)} {canWrite : List Byte → Bool} {w : WriteOracle} {ps : List ArgPiece}
    {tail : CmdTail} (hv : ∀ p ∈ ps, p.Valid dumpSyntax) (ht : tail.Valid dumpSyntax)
    (hno : ¬ (Known ps tail ∧ ∃ input f, (givenVals 0x69#8 ps).getLast? = some input ∧ files input = some f ∧ 504 < f.length ∧
      (givenVals 0x48#8 ps ≠ [] ∨ (givenVals 0x63#8 ps ≠ [] ∧ (f.drop 504).take 4 = [0x7f, 0x45, 0x4c, 0x46] ∧
        ∃ output, (givenVals 0x6f#8 ps).getLast? = some output ∧ canWrite output = true)))) :
    let r := dumpMain files canWrite w (cmdLine ps tail)
    r.status ≠ 0 ∧ r.files = files ∧ r.out = .nothing := by
  intro r
  have hr : r = dumpMain files canWrite w (cmdLine ps tail) := rfl
  clear_value r
  by_cases hk : Known ps tail
  · obtain ⟨o, h1, h2, h3, h4, h5⟩ := dumpLoop_known hv hk
    unfold dumpMain at hr
    rw [h1] at hr
    dsimp only at hr
    rw [h2] at hr
    split at hr
    · subst hr; exact ⟨by simp, rfl, rfl⟩
    rename_i input hi
    split at hr
    · rename_i hh
      unfold dumpHeader at hr
      cases hf : files input with
      | none => rw [hf] at hr; subst hr; exact ⟨by simp, rfl, rfl⟩
      | some f =>
        rw [hf] at hr
        by_cases hl : f.length ≤ hdrSize
        · dsimp only at hr
          rw [if_pos hl] at hr
          subst hr; exact ⟨by simp, rfl, rfl⟩
        · exact absurd ⟨hk, input, f, hi, hf, by simp only [hdrSize] at hl; omega, Or.inl (h4.1 hh)⟩ hno
    · split at hr
      · subst hr; exact ⟨by simp, rfl, rfl⟩
      rename_i output ho
      rw [h3] at ho
      split at hr
      · rename_i hc
        unfold convertToElf at hr
        split at hr
        · subst hr; exact ⟨by simp, rfl, rfl⟩
        rename_i f hf
        split at hr
        · subst hr; exact ⟨by simp, rfl, rfl⟩
        rename_i elf hd
        split at hr
        · rename_i hcw
          unfold dumpElf at hd
          split at hd
          · cases hd
          rename_i hl
          split at hd
          · cases hd
          rename_i hm
          simp only [hdrSize] at hl hm
          exact absurd ⟨hk, input, f, hi, hf, by omega, Or.inr ⟨h5.1 hc, by simpa [elfMagic] using hm, output, ho, hcw⟩⟩ hno
        · subst hr; exact ⟨by simp, rfl, rfl⟩
      · subst hr; exact ⟨by simp, rfl, rfl⟩
  · have hb := getopts_bad dumpSpec_agrees dumpSyntax_ok hv ht hk
    unfold dumpMain at hr
    cases hd : dumpLoop (getopts dumpSpec (cmdLine ps tail)).1 {} with
    | none => rw [hd] at hr; subst hr; exact ⟨by simp, rfl, rfl⟩
    | some o => exact absurd hb (dumpLoop_some hd).2.2.2.2

/-- C100 is violated: `-H` does not look at the magic: for any file that is long enough the exit status is 0. -/
theorem C100_violated_no_patch {files : List Byte → Option (List Byte)} {f : List Byte} (hf : files [0x61] = some f) (hl : 504 < f.length) :
    (dumpMain files (fun _ => true) (fun b => some b.length) [[0x2d, 0x48], [0x2d, 0x69], [0x61]]).status = 0 := by
  have e : ([[0x2d, 0x48], [0x2d, 0x69], [0x61]] : List (List Byte)) = cmdLine [.maybe [] 0x48#8 [], .sep [] 0x69#8 [0x61]] .nothing := rfl
  obtain ⟨o, h1, h2, h3, h4, h5⟩ := dumpLoop_known (ps := [.maybe [] 0x48#8 [], .sep [] 0x69#8 [0x61]]) (tail := .nothing)
    (by simp [ArgPiece.Valid, dumpSyntax]) (by simp [Known])
  have hi : o.input = some [0x61] := by rw [h2]; simp [givenVals]
  have hh : o.header = true := h4.2 (by simp [givenVals])
  rw [e]
  unfold dumpMain
  simp only [h1, hi, hh, if_true]
  unfold dumpHeader
  rw [hf]
  dsimp only
  rw [if_neg (by simp only [hdrSize]; omega)]
  split <;> rfl

/-- C100 is violated: of a file that is not a patch strings are shown that do not end in the header, and the memory behind it is
read. -/
theorem C100_violated_string :
    (dumpMain (fun n => if n = [0x61] then some (List.replicate 505 0x41#8) else none) (fun _ => true) (fun b => some b.length)
      [[0x2d, 0x48], [0x2d, 0x69], [0x61]]).out = .undefined := by
  decide +kernel

/-- C100 is violated: if the output is the input, the patch is lost. -/
theorem C100_violated_same_file {files : List Byte → Option (List Byte)} {f : List Byte} (hf : files [0x61] = some f) (hl : 504 < f.length)
    (hm : (f.drop 504).take 4 = [0x7f, 0x45, 0x4c, 0x46]) (w : WriteOracle) :
    (dumpMain files (fun _ => true) w [[0x2d, 0x63], [0x2d, 0x69], [0x61], [0x2d, 0x6f], [0x61]]).files [0x61] = some [] := by
  have e : ([[0x2d, 0x63], [0x2d, 0x69], [0x61], [0x2d, 0x6f], [0x61]] : List (List Byte)) =
    cmdLine [.maybe [] 0x63#8 [], .sep [] 0x69#8 [0x61], .sep [] 0x6f#8 [0x61]] .nothing := rfl
  obtain ⟨o, h1, h2, h3, h4, h5⟩ := dumpLoop_known (ps := [.maybe [] 0x63#8 [], .sep [] 0x69#8 [0x61], .sep [] 0x6f#8 [0x61]]) (tail := .nothing)
    (by simp [ArgPiece.Valid, dumpSyntax]) (by simp [Known])
  have hi : o.input = some [0x61] := by rw [h2]; simp [givenVals]
  have ho : o.output = some [0x61] := by rw [h3]; simp [givenVals]
  have hc : o.convert = true := h5.2 (by simp [givenVals])
  have hh : o.header = false := by
    cases hc : o.header with
    | false => rfl
    | true => exact absurd (h4.1 hc) (by simp [givenVals])
  have hd : dumpElf f = some (f.drop 504) := by
    unfold dumpElf
    rw [if_neg (by simp only [hdrSize]; omega), if_neg (by simp only [hdrSize]; simpa [elfMagic] using hm)]
    rfl
  rw [e]
  unfold dumpMain
  simp only [h1, hi, ho, hh, hc, Bool.false_eq_true, if_true, if_false]
  unfold convertToElf
  simp only [hf, hd, if_true]

/-! ### Concrete cases -/

/-- The files: the object, and the patch made from it for a build id. -/
def exFiles : List Byte → Option (List Byte) :=
  fun n => if n = [0x61] then some exPayload
    else if n = [0x62] then some (makeFile (fun b => some b.length) (fun b => some b.length) exBid [0x30, 0x31] 5 exPayload).1 else none

/-- `libcare-dump -o x -c -i b -oc`: the last output counts; a command line of another form than that of the theorem on the whole way. -/
example : (dumpMain exFiles (fun _ => true) (fun b => some b.length) [[0x2d, 0x6f], [0x78], [0x2d, 0x63], [0x2d, 0x69], [0x62], [0x2d, 0x6f, 0x63]]).files [0x63] =
    some (exPayload ++ List.replicate 13 0) := by
  decide +kernel

/-- `libcare-dump -H -ib` -/
example : (dumpMain exFiles (fun _ => true) (fun b => some b.length) [[0x2d, 0x48], [0x2d, 0x69, 0x62]]).out =
    .header [0x62] [0x4b, 0x50, 0x41, 0x54, 0x43, 0x48, 0x31] [0x30, 0x31] exBid := by
  decide +kernel

/-- The whole way: `kpatch_make -b BID -i 01 a -o b`, then `libcare-dump`. -/
example := C100_roundtrip_partial (files := fun n => if n = [0x61] then some exPayload else none) (canWrite := fun _ => true)
    (w1 := fun b => some b.length) (w2 := fun b => some b.length) (w := fun b => some b.length) (time := 5) (reread := []) (tail := .nothing)
    (ps := [.sep [] 0x62 exBid, .sep [] 0x69 [0x30, 0x31], .word [0x61], .sep [] 0x6f [0x62]])
    (bid := exBid) (pid := [0x30, 0x31]) (out := [0x62]) (input := [0x61]) (payload := exPayload) (ws := [])
    (by simp [ArgPiece.Valid, makeSyntax]) (by simp [Known]) (by simp [givenVals]) (by simp [givenVals]) (by simp [givenVals]) (by simp [givenVals]) (by simp [givenVals])
    (by simp [givenWords]) (by decide) (by decide) (by decide) (by decide) (by decide) (by simp)
    ⟨by decide +kernel, by decide +kernel, by decide +kernel, by decide +kernel⟩ (by decide +kernel) (by decide) rfl (by decide +kernel)

/-- `libcare-dump -i a`: nothing to do. -/
example (files : List Byte → Option (List Byte)) :
    (dumpMain files (fun _ => true) (fun b => some b.length) (cmdLine [.sep [] 0x69 [0x61]] .nothing)).status ≠ 0 :=
  (C100_refused (tail := .nothing) (by simp [ArgPiece.Valid, dumpSyntax]) trivial (by simp [givenVals])).1

end Verif
