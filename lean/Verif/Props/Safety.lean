import Verif.Proof.Safety
import Verif.Props.Rollback
import Verif.Props.Ptrace
/-
C14-C17: code is changed only when nobody is executing it.
-/
namespace Verif

/-- The process as it was last looked at before the code was changed: the first look if that was clear,
otherwise the look after the threads were let run. -/
def LastLookClear (code : Nat → Prop) (s : SafetyEnv) : Prop :=
  LookClear code s.first ∨ (¬ LookClear code s.first ∧ s.attachOk = true ∧ LookClear code s.second)

theorem objectApply_cases' (a : Arch) (e : ApplyEnv) (ids : List (List Byte)) (file : List Byte) (m : Mem)
    (v : ElfView) (kpta : Nat) (hv : e.view = some v) (hr : e.region = some kpta) :
    let l := layout a e.page v.undef (totalSizeOf (file.take hdrSize)) v.infoOff v.ninfo
    ((objectApply a e ids file m).1 = m ∧ (objectApply a e ids file m).2.2 = false) ∨
    ((objectApply a e ids file m).1 = mmapFixed m kpta l.totalMem ∧ (objectApply a e ids file m).2.2 = false) ∨
    ∃ image, e.image = some image ∧ objectApply a e ids file m =
        installPatch a e l v (totalSizeOf (file.take hdrSize)) (storeLayout (file.take hdrSize) l) image kpta
          (mmapFixed m kpta l.totalMem) := by
  simp only
  unfold objectApply
  by_cases hdup : (!e.dupOk) = true
  · left; rw [if_pos hdup]; exact ⟨rfl, rfl⟩
  rw [if_neg hdup]
  by_cases hid : ids.contains (cstr (kpId file)) = true
  · left; rw [if_pos hid]; exact ⟨rfl, rfl⟩
  rw [if_neg hid]
  rw [hv, hr]
  simp only
  by_cases hj : (decide (v.undef ≠ 0) && !e.jtblOk) = true
  · left; rw [if_pos hj]; exact ⟨rfl, rfl⟩
  rw [if_neg hj]
  by_cases hsp : (!e.splitOk) = true
  · right; left; rw [if_pos hsp]; exact ⟨rfl, rfl⟩
  rw [if_neg hsp]
  cases him : e.image with
  | none => right; left; exact ⟨rfl, rfl⟩
  | some image => right; right; exact ⟨image, rfl, rfl⟩

/-- Outside the patch region an unsuccessful safety check leaves the target as the wait left it. -/
theorem objectApply_unsafe {a : Arch} {e : ApplyEnv} {ids : List (List Byte)} {file : List Byte} {m : Mem}
    {v : ElfView} {kpta : Nat} {image : List Byte} {l : Layout}
    (A : ApplyAssumptions a e file m v kpta image l)
    (hs : ∀ m', (∀ x, ¬ InRange x kpta l.totalMem → m' x = m x) → (e.safety m').2 = false) :
    (objectApply a e ids file m).2.2 = false ∧
    ∃ mw : Mem, (∀ x, ¬ InRange x kpta l.totalMem → mw x = m x) ∧
      ∀ x, ¬ InRange x kpta l.totalMem →
        (objectApply a e ids file m).1 x = mw x ∨ (objectApply a e ids file m).1 x = (e.safety mw).1 x := by
  have hpg : 0 < e.page := by have := A.page; omega
  have hin := layout_ineq a e.page v.undef image.length v.infoOff v.ninfo hpg
    (by rw [← A.layout]; exact A.mem32) (by have := A.table.fits; omega)
  rw [← A.layout] at hin
  obtain ⟨i1, i2, i3, i4, i5, i6, i7⟩ := hin
  have hts : image.length = totalSizeOf (file.take hdrSize) - hdrSize := by
    rw [A.size]; simp [hdrSize]
  have hhl : (file.take hdrSize).length = 504 := by
    have := A.fileLen; rw [List.length_take]; simp only [hdrSize]; omega
  obtain ⟨hsl, -, -, -, -, -⟩ := storeLayout_spec (file.take hdrSize) l hhl
  have hjm : ∀ jo, l.jmpOffset = some jo → jo = 504 ∧ 504 + jmpTableSize a v.undef ≤ l.elfOffset :=
    fun jo hjo => by
      rcases i7 with ⟨_, h⟩ | ⟨_, h, h'⟩
      · rw [h] at hjo; simp at hjo
      · rw [h] at hjo
        injection hjo with hjo
        omega
  have hmm : ∀ x, ¬ InRange x kpta l.totalMem → mmapFixed m kpta l.totalMem x = m x := by
    intro x hx
    unfold mmapFixed
    rw [if_neg (by simpa only [InRange] using hx)]
  have hcs := objectApply_cases' a e ids file m v kpta A.view A.region
  simp only at hcs
  rw [A.size, ← A.layout] at hcs
  rcases hcs with ⟨h1, h2⟩ | ⟨h1, h2⟩ | ⟨im, him, heq⟩
  · exact ⟨h2, m, fun _ _ => rfl, fun x _ => Or.inl (by rw [h1])⟩
  · exact ⟨h2, _, hmm, fun x _ => Or.inl (by rw [h1])⟩
  · have hie := A.relocated im him
    subst hie
    have hfr := writeParts_frame (a := a) (e := e) (l := l) (undef := v.undef) (ts := 504 + im.length)
      (hdr := storeLayout (file.take hdrSize) l) (image := im) (kpta := kpta) (m := mmapFixed m kpta l.totalMem)
      hsl (by omega) (by show im.length = 504 + im.length - 504; omega) hjm (by omega)
    have hin : ∀ x, ¬ InRange x kpta l.totalMem →
        (writeParts a e l v.undef (504 + im.length) (storeLayout (file.take hdrSize) l) im kpta
          (mmapFixed m kpta l.totalMem)).1 x = m x := fun x hx => by rw [hfr x hx, hmm x hx]
    rw [heq]
    unfold installPatch
    generalize writeParts a e l v.undef (504 + im.length) (storeLayout (file.take hdrSize) l) im kpta
      (mmapFixed m kpta l.totalMem) = w at *
    dsimp only
    split
    · exact ⟨rfl, w.1, hin, fun x _ => Or.inl rfl⟩
    · have := hs _ hin
      rw [if_pos (by simp [this])]
      exact ⟨rfl, _, hin, fun x _ => Or.inr rfl⟩

/-- C14: if applying succeeds, then at the last look at the stopped process before the jumps were installed no
frame of any thread or coroutine was inside a function that the patch replaces. -/
theorem C14_no_frame_in_replaced_code {a : Arch} {e : ApplyEnv} {ids : List (List Byte)} {file : List Byte} {m : Mem}
    {v : ElfView} {image : List Byte} (hv : e.view = some v) (him : e.image = some image)
    (s : SafetyEnv) (hs : e.safety = ensureSafety .apply (parseInfos image v.infoOff v.ninfo) s)
    (hz : ∀ i ∈ parseInfos image v.infoOff v.ninfo, i.isOld → i.daddr ≠ 0)
    (h : (objectApply a e ids file m).2.2 = true) :
    LastLookClear (InReplaced (parseInfos image v.infoOff v.ninfo)) s := by
  obtain ⟨v', kpta, image', l, h1, h2, h3, h4, h5, h6⟩ := objectApply_ok a e ids file m h
  rw [hv] at h1; injection h1 with h1; subst h1
  rw [him] at h3; injection h3 with h3; subst h3
  rw [h6] at h
  obtain ⟨-, hok, -⟩ := installPatch_ok h
  rw [hs] at hok
  rcases ensureSafety_ok (d := .apply) hz s _ hok with ⟨hf, -⟩ | ⟨hf, hsnd, r, -, ha, -⟩
  · exact Or.inl hf
  · exact Or.inr ⟨hf, ha, hsnd⟩

/-- C14, the other direction of the decision: the tool never refuses a process in which nobody executes the
code. -/
theorem C14_clear_process_accepted (infos : List Info) (s : SafetyEnv) (m : Mem) (hm : s.mallocOk = true)
    (hz : ∀ i ∈ infos, i.isOld → i.daddr ≠ 0) (h : LookClear (InReplaced infos) s.first) :
    ensureSafety .apply infos s m = (m, true) := by
  have := (verifySafety_zero (d := .apply) hz s.garbage s.first).mpr h
  unfold ensureSafety
  rw [if_neg (by simp [hm])]
  generalize verifySafety .apply infos s.garbage s.first = q at *
  obtain ⟨q1, q2⟩ := q
  simp only at this
  subst this
  rfl

/-- C15, partial: when unpatching succeeds no frame was inside a replacement of an existing function.  Missing:
functions added by the patch and the patch's jump table, for which the claim is false
(`C15_violated_new_function`, `C15_violated_jump_table`). -/
theorem C15_no_frame_in_replacement_partial {a : Arch} {e : UnapplyEnv} {chk : Bool} {l : LocalObj} {m : Mem}
    {infos : List Info} (_hf : findInfos e l m = some infos)
    (s : SafetyEnv) (hs : e.safety = ensureSafety .unapply infos s)
    (hz : ∀ i ∈ infos, i.isOld → i.saddr ≠ 0)
    (h : (objectUnapply a e chk l m).2 = true) :
    LastLookClear (InReplacement infos) s := by
  obtain ⟨infos', hdr, h1, h2, h3, -⟩ := objectUnapply_ok h
  rw [hs] at h3
  rcases ensureSafety_ok (d := .unapply) hz s m h3 with ⟨hf, -⟩ | ⟨hf, hsnd, r, -, ha, -⟩
  · exact Or.inl hf
  · exact Or.inr ⟨hf, ha, hsnd⟩

/-! ### C16 -/

/-- The stop addresses handed to the wait are frames of the process, 0, or the uninitialised value. -/
theorem verifySingle_retip {d : Direction} {infos : List Info} (P : Nat → Prop) :
    ∀ (fs : List Nat) (prev : Bool) (last retip : Nat), P retip → (∀ ip ∈ fs, P ip) →
      P (verifySingle d infos prev last retip fs).2 := by
  intro fs
  induction fs with
  | nil => intro prev last retip h _; exact h
  | cons ip fs ih =>
    intro prev last retip h hfs
    unfold verifySingle
    split
    · exact ih _ _ _ h fun ip' hip => hfs ip' (by simp [hip])
    · split
      · exact hfs ip (by simp)
      · exact ih _ _ _ h fun ip' hip => hfs ip' (by simp [hip])

theorem verifyThreads_retips {d : Direction} {infos : List Info} (P : Nat → Prop) (h0 : P 0) :
    ∀ (ts : List (Option (List Nat))) (retip : Nat) (n : Nat) (rs : List Nat), P retip →
      (∀ s ∈ ts, ∀ fs, s = some fs → ∀ ip ∈ fs, P ip) →
      verifyThreads d infos retip ts = some (n, rs) → ∀ r ∈ rs, P r := by
  intro ts
  induction ts with
  | nil =>
    intro retip n rs _ _ h
    simp only [verifyThreads, Option.some.injEq, Prod.mk.injEq] at h
    rw [← h.2]; simp
  | cons t ts ih =>
    intro retip n rs hr hts h
    cases t with
    | none => simp [verifyThreads] at h
    | some fs =>
      unfold verifyThreads at h
      dsimp only at h
      have hr' : P (verifySingle d infos false 0 retip fs).2 :=
        verifySingle_retip P fs _ _ _ hr fun ip hip => hts (some fs) (by simp) fs rfl ip hip
      cases hc : verifyThreads d infos (verifySingle d infos false 0 retip fs).2 ts with
      | none => rw [hc] at h; simp at h
      | some p =>
        obtain ⟨n', rs'⟩ := p
        rw [hc] at h
        have hrest := ih _ n' rs' hr' (fun s hs => hts s (by simp [hs])) hc
        simp only [Option.some.injEq] at h
        split at h
        · simp only [Prod.mk.injEq] at h
          rw [← h.2]
          intro r hmem
          rcases List.mem_cons.mp hmem with rfl | hmem
          · exact hr'
          · exact hrest r hmem
        · simp only [Prod.mk.injEq] at h
          rw [← h.2]
          intro r hmem
          rcases List.mem_cons.mp hmem with rfl | hmem
          · exact h0
          · exact hrest r hmem

/-- The safety check writes no code when its wait does not. -/
theorem ensureSafety_code {d : Direction} {infos : List Info} (s : SafetyEnv) (code : Nat → Prop) (stop : Nat → Prop)
    (h0 : stop 0) (hg : stop s.garbage) (hfr : ∀ t ∈ s.first.threads, ∀ fs, t = some fs → ∀ ip ∈ fs, stop ip)
    (hw : ∀ rs m x, (∀ r ∈ rs, stop r) → code x → (s.wait rs m).1 x = m x) :
    ∀ m x, code x → (ensureSafety d infos s m).1 x = m x := by
  intro m x hx
  unfold ensureSafety
  split
  · rfl
  have hret : ∀ r ∈ (verifySafety d infos s.garbage s.first).2, stop r := by
    unfold verifySafety
    split
    · simp
    · simp
    · split
      · simp
      · rename_i hc
        exact verifyThreads_retips stop h0 _ _ _ _ hg hfr hc
  generalize verifySafety d infos s.garbage s.first = q at *
  obtain ⟨q1, q2⟩ := q
  match q1 with
  | .failed 0 => rfl
  | .failed (n + 1) =>
    dsimp only at *
    split
    · exact hw q2 m x hret hx
    split
    · exact hw q2 m x hret hx
    · exact hw q2 m x hret hx
  | .error => rfl
  | .coroUnsafe => rfl

/-- C16: the threads do not leave the code (the look after the wait is not clear, whatever happened during
it), or a coroutine is inside, or the wait or attaching to new threads fails.  Then applying fails and no
byte of the original code has changed.  The wait is the real one (breakpoints of one byte, C20): while the
threads run they do not write code (`u.run`), and the stop addresses are code of the target. -/
theorem C16_unsafe_state_leaves_code {a : Arch} {e : ApplyEnv} {ids : List (List Byte)} {file : List Byte} {m : Mem}
    {v : ElfView} {kpta : Nat} {image : List Byte} {l : Layout}
    (A : ApplyAssumptions a e file m v kpta image l)
    (s : SafetyEnv) (u : UntilEnv)
    (hs : e.safety = ensureSafety .apply (parseInfos image v.infoOff v.ninfo)
      { s with wait := executeUntil breakInsnOther u })
    (hz : ∀ i ∈ parseInfos image v.infoOff v.ninfo, i.isOld → i.daddr ≠ 0)
    (hun1 : ¬ LookClear (InReplaced (parseInfos image v.infoOff v.ninfo)) s.first)
    (hun2 : ¬ LookClear (InReplaced (parseInfos image v.infoOff v.ninfo)) s.second ∨ s.attachOk = false ∨
      ∀ rs m', (executeUntil breakInsnOther u rs m').2 = false)
    (code : Nat → Prop) (hmapped : ∀ x, code x → m x ≠ none)
    (hstack : ∀ t ∈ s.first.threads, ∀ fs, t = some fs → ∀ ip ∈ fs, ip = 0 ∨ code ip)
    (hgarbage : s.garbage = 0 ∨ code s.garbage)
    (hrun : ∀ m' x, code x → u.run m' x = m' x) (hres : ∀ n, 1 ≤ u.restore n) :
    (objectApply a e ids file m).2.2 = false ∧ ∀ x, code x → (objectApply a e ids file m).1 x = m x := by
  have hfalse : ∀ m', (e.safety m').2 = false := by
    intro m'
    apply Classical.byContradiction
    intro hc
    have hc' : (e.safety m').2 = true := by simpa using hc
    rw [hs] at hc'
    rcases ensureSafety_ok (d := .apply) hz _ _ hc' with ⟨hf, -⟩ | ⟨hf, hsnd, r, hw, ha, -⟩
    · exact hun1 hf
    · rcases hun2 with h | h | h
      · exact h hsnd
      · rw [h] at ha; simp at ha
      · rw [h] at hw; simp at hw
  obtain ⟨h1, mw, hw, hx⟩ := objectApply_unsafe (ids := ids) A fun m' _ => hfalse m'
  refine ⟨h1, fun x hc => ?_⟩
  have hnr : ¬ InRange x kpta l.totalMem := by
    intro hr
    simp only [InRange] at hr
    have := A.free (x - kpta) (by omega)
    rw [show kpta + (x - kpta) = x by omega] at this
    exact hmapped x hc this
  have hcode : ∀ m' x, code x → (e.safety m').1 x = m' x := by
    rw [hs]
    apply ensureSafety_code { s with wait := executeUntil breakInsnOther u } code (fun r => r = 0 ∨ code r) (Or.inl rfl) hgarbage hstack
    intro rs m' x hr hx
    exact C20_breakpoints_removed u rs m' code (fun r hm h0 => (hr r hm).resolve_left h0) hrun hres x hx
  rcases hx x hnr with h | h
  · rw [h, hw x hnr]
  · rw [h, hcode mw x hc, hw x hnr]

/-! ### C17 -/

/-- The frames above the innermost run of busy frames. -/
theorem verifySingle_stop {d : Direction} {infos : List Info} :
    ∀ (pre run : List Nat) (ip : Nat) (rest : List Nat) (last retip : Nat),
      (∀ f ∈ pre, ¬ Busy d infos f) → (∀ f ∈ run, Busy d infos f) → run ≠ [] → ¬ Busy d infos ip →
      (verifySingle d infos false last retip (pre ++ run ++ ip :: rest)).2 = ip := by
  have inner : ∀ (run : List Nat) (ip : Nat) (rest : List Nat) (last retip : Nat),
      (∀ f ∈ run, Busy d infos f) → ¬ Busy d infos ip →
      (verifySingle d infos true last retip (run ++ ip :: rest)).2 = ip := by
    intro run
    induction run with
    | nil =>
      intro ip rest last retip _ hip
      rw [List.nil_append, verifySingle, hitInfo_none.mpr hip]
      rfl
    | cons f run ih =>
      intro ip rest last retip hr hip
      rw [List.cons_append, verifySingle]
      cases hh : hitInfo d infos f with
      | none => exact absurd (hr f (by simp)) (hitInfo_none.mp hh)
      | some i => exact ih ip rest _ retip (fun g hg => hr g (by simp [hg])) hip
  intro pre
  induction pre with
  | nil =>
    intro run ip rest last retip _ hr hne hip
    cases run with
    | nil => exact absurd rfl hne
    | cons f run =>
      rw [List.nil_append, List.cons_append, verifySingle]
      cases hh : hitInfo d infos f with
      | none => exact absurd (hr f (by simp)) (hitInfo_none.mp hh)
      | some i => exact inner run ip rest _ retip (fun g hg => hr g (by simp [hg])) hip
  | cons f pre ih =>
    intro run ip rest last retip hp hr hne hip
    rw [List.cons_append, List.cons_append, verifySingle, hitInfo_none.mpr (hp f (by simp))]
    simp only [Bool.false_eq_true, if_false]
    exact ih run ip rest last retip (fun g hg => hp g (by simp [hg])) hr hne hip

theorem verifyThreads_get {d : Direction} {infos : List Info} (hz : NoNullCode d infos) :
    ∀ (ts : List (Option (List Nat))) (g n : Nat) (rs : List Nat), verifyThreads d infos g ts = some (n, rs) →
      rs.length = ts.length ∧
      ∀ (k : Nat) fs, ts[k]? = some (some fs) →
        (∀ pre run ip rest, fs = pre ++ run ++ ip :: rest → (∀ f ∈ pre, ¬ Busy d infos f) →
          (∀ f ∈ run, Busy d infos f) → run ≠ [] → ¬ Busy d infos ip → rs[k]? = some ip) ∧
        ((∀ f ∈ fs, ¬ Busy d infos f) → rs[k]? = some 0) := by
  intro ts
  induction ts with
  | nil =>
    intro g n rs h
    simp only [verifyThreads, Option.some.injEq, Prod.mk.injEq] at h
    rw [← h.2]; simp
  | cons t ts ih =>
    intro g n rs h
    cases t with
    | none => simp [verifyThreads] at h
    | some fs =>
      unfold verifyThreads at h
      dsimp only at h
      cases hc : verifyThreads d infos (verifySingle d infos false 0 g fs).2 ts with
      | none => rw [hc] at h; simp at h
      | some p =>
        obtain ⟨n', rs'⟩ := p
        rw [hc] at h
        obtain ⟨hl, hk⟩ := ih _ n' rs' hc
        have hrs : rs = (if (verifySingle d infos false 0 g fs).1 ≠ 0 then (verifySingle d infos false 0 g fs).2 else 0) :: rs' := by
          simp only [Option.some.injEq] at h
          split at h <;> simp only [Prod.mk.injEq] at h <;> rw [← h.2]
          · rename_i hv; rw [if_pos hv]
          · rename_i hv; rw [if_neg hv]
        subst rs
        refine ⟨by simp [hl], ?_⟩
        intro k fs' hget
        cases k with
        | succ k =>
          simp only [List.getElem?_cons_succ] at hget ⊢
          exact hk k fs' hget
        | zero =>
          simp only [List.getElem?_cons_zero, Option.some.injEq] at hget ⊢
          subst hget
          constructor
          · intro pre run ip rest hfs hp hr hne hip
            have hnz : (verifySingle d infos false 0 g fs).1 ≠ 0 := by
              intro h0
              have := (verifySingle_zero hz fs g).mp h0
              cases run with
              | nil => exact hne rfl
              | cons f run => exact this f (by rw [hfs]; simp) (hr f (by simp))
            rw [if_pos hnz, hfs]
            exact verifySingle_stop pre run ip rest 0 g hp hr hne hip
          · intro hall
            rw [if_neg (by simpa using (verifySingle_zero hz fs g).mpr hall)]

/-- C17, partial: for any number of threads, a thread whose stack has replaced functions in it (the innermost run
of them is `run`) and continues outside of them at `ip` gets exactly `ip`, which is not inside any replaced
function; a thread not inside any gets no stop address.  Missing: stacks that end inside a replaced
function (`C17_violated_stale_address`). -/
theorem C17_stop_address_partial {d : Direction} {infos : List Info} (hz : NoNullCode d infos) (l : Look) (g n : Nat)
    (retips : List Nat) (h : verifySafety d infos g l = (.failed n, retips)) :
    retips.length = l.threads.length ∧
    ∀ (k : Nat) fs, l.threads[k]? = some (some fs) →
      (∀ pre run ip rest, fs = pre ++ run ++ ip :: rest → (∀ f ∈ pre, ¬ Busy d infos f) →
        (∀ f ∈ run, Busy d infos f) → run ≠ [] → ¬ Busy d infos ip → retips[k]? = some ip) ∧
      ((∀ f ∈ fs, ¬ Busy d infos f) → retips[k]? = some 0) := by
  unfold verifySafety at h
  split at h
  · simp at h
  · simp at h
  · split at h
    · simp at h
    · rename_i hc
      simp only [Prod.mk.injEq] at h
      rw [← h.2]
      exact verifyThreads_get hz _ _ _ _ hc

/-! ### Witnesses -/
namespace ExSafety

/-- One replaced function at 0x1000 (16 bytes, replaced by 0x20200, 32 bytes) and one added function at
0x20300. -/
def infos : List Info := [⟨0x1000, 0x20200, 16, 32, false⟩, ⟨0, 0x20300, 0, 64, false⟩]

/-- Thread 0 is in the replaced function, called from 0x3000; thread 1 is elsewhere. -/
def busy : Look := ⟨[], [some [0x1004, 0x3000, 0x4000], some [0x5000]]⟩
def clear : Look := ⟨[some [0x7000]], [some [0x3000, 0x4000], some [0x5000]]⟩

def env : SafetyEnv := ⟨true, 0xdead, busy, fun rs m => (m, rs == [0x3000, 0]), true, clear⟩

/-- The wait is told to stop thread 0 at 0x3000; afterwards the process is clear. -/
example : (ensureSafety .apply infos env (fun _ => none)).2 = true := by decide +kernel

example : NoNullCode .apply infos := by unfold NoNullCode; decide

/-- C14's hypotheses are met by the run of `ExRestore` with a real safety check. -/
example : (objectApply .x86 { ExRestore.applyEnv with safety := ensureSafety .apply (parseInfos ExRestore.image 0 1) env } []
    ExRestore.file ExRestore.mem).2.2 = true := by decide +kernel

/-- C16: a thread that stays. -/
def stuck : SafetyEnv := { env with second := busy }

example : ¬ LookClear (InReplaced (parseInfos ExRestore.image 0 1)) stuck.second := by
  rw [ExRestore.infos_eq]
  intro h
  obtain ⟨fs, h1, h2⟩ := h (some [0x1004, 0x3000, 0x4000]) (by simp [stuck, busy])
  injection h1 with h1
  subst h1
  exact h2 0x1004 (by simp) ⟨_, List.mem_singleton.mpr rfl, by simp [Info.isOld], by simp [InRange]⟩

/-- A patch with these two records. -/
def image2 : List Byte :=
  leBytes 8 0x1000 ++ leBytes 8 0x20200 ++ leBytes 4 16 ++ leBytes 4 32 ++ leBytes 24 0 ++
  leBytes 8 0 ++ leBytes 8 0x20300 ++ leBytes 4 0 ++ leBytes 4 64 ++ leBytes 24 0 ++ leBytes 24 0
def file2 : List Byte := setField (List.replicate 504 0) offTotalSize 4 (504 + 120)
def applyEnv2 : ApplyEnv := { ExRestore.applyEnv with view := some ⟨0, 2, 0⟩, image := some image2 }
def lay2 : Layout := layout .x86 4096 0 (504 + 120) 0 2
/-- The process after that patch was applied. -/
def patched : Mem := (objectApply .x86 applyEnv2 [] file2 ExRestore.mem).1
/-- What a later run of the tool finds. -/
def found : LocalObj := ⟨0x20000, some (storeLayout (file2.take hdrSize) lay2), none, true⟩

example : parseInfos image2 0 2 = infos ∧ findInfos ExRestore.unapplyEnv found patched = some infos := by decide +kernel

/-- C17's hypotheses: the innermost run is `[0x1004]`. -/
example : verifySafety .apply infos 0xdead busy = (.failed 1, [0x3000, 0]) := by decide +kernel

end ExSafety

open ExSafety in
/-- C15 is false: a thread is executing a function added by the patch (frame 0x20310), unpatching is considered
safe, and the memory under that frame is unmapped. -/
theorem C15_violated_new_function :
    let look : Look := ⟨[], [some [0x20310, 0x3000]]⟩
    let s : SafetyEnv := ⟨true, 0, look, fun _ m => (m, true), true, look⟩
    patched 0x20310 ≠ none ∧
    (objectUnapply .x86 { ExRestore.unapplyEnv with safety := ensureSafety .unapply infos s } false found patched).2 = true ∧
    (objectUnapply .x86 { ExRestore.unapplyEnv with safety := ensureSafety .unapply infos s } false found patched).1
      0x20310 = none := by
  refine ⟨?_, ?_, ?_⟩ <;> decide +kernel

open ExSafety in
/-- C15 is false: a thread is stopped inside the patch's jump table (0x201f8, between the header and the image),
which belongs to no record, and unpatching is considered safe. -/
theorem C15_violated_jump_table :
    let look : Look := ⟨[], [some [0x201f8]]⟩
    let s : SafetyEnv := ⟨true, 0, look, fun _ m => (m, true), true, look⟩
    ∀ m, ensureSafety .unapply infos s m = (m, true) := by
  intro look s m
  rfl

open ExSafety in
/-- C17 is false: the second thread's stack ends inside the replaced function (its start routine), it is given
the stop address of the first thread; if it comes first it gets an uninitialised value. -/
theorem C17_violated_stale_address :
    verifySafety .apply infos 0xdead ⟨[], [some [0x1004, 0x3000], some [0x1008]]⟩ = (.failed 2, [0x3000, 0x3000]) ∧
    verifySafety .apply infos 0xdead ⟨[], [some [0x1008], some [0x1004, 0x3000]]⟩ = (.failed 2, [0xdead, 0x3000]) := by
  decide +kernel

end Verif
