import Verif.Model.Process
import Verif.Props.Rollback
import Verif.Props.Objects
import Verif.Props.Stack
/-
C18, C19, C49: commands over the objects of a process.
-/
namespace Verif

/-! ### Which patches are found for which object -/

/-- The object that the patches with build id `b` are attributed to. -/
def ownerOf (bid : Obj → Option (List Byte)) (b : List Byte) (ps : List PObj) : Option PObj :=
  ps.find? fun p => bid p.obj = some b

theorem associateOne_owner (bid : Obj → Option (List Byte)) (pid : Option (List Byte)) (kpta : Nat) (hdr b : List Byte) :
    ∀ ps : List PObj, ownerOf bid b (associateOne bid pid kpta hdr ps) =
      if hdrBuildid hdr = b then
        (ownerOf bid b ps).map fun o => { o with
          applied := addApplied o.applied hdr
          target := if pid = some (hdrId hdr) then some (kpta, hdr) else o.target }
      else ownerOf bid b ps := by
  intro ps
  induction ps with
  | nil => simp [ownerOf, associateOne]
  | cons o os ih =>
    unfold associateOne
    by_cases h : bid o.obj = some (hdrBuildid hdr)
    · rw [if_pos h]
      by_cases hb : hdrBuildid hdr = b
      · subst hb
        simp [ownerOf, h]
      · simp only [ownerOf, hb, if_false]
        have : bid o.obj ≠ some b := by rw [h]; simpa using hb
        simp [this]
    · rw [if_neg h]
      by_cases hb : bid o.obj = some b
      · have hne : hdrBuildid hdr ≠ b := by rintro rfl; exact h hb
        simp [ownerOf, hb, hne]
      · have e1 : ∀ l : List PObj, ownerOf bid b (o :: l) = ownerOf bid b l := by
          intro l; simp [ownerOf, hb]
        rw [e1, e1]
        exact ih

theorem addApplied_ids (l : List (List Byte)) (hdr : List Byte) (i : List Byte) :
    i ∈ (addApplied l hdr).map hdrId ↔ i ∈ l.map hdrId ∨ i = hdrId hdr := by
  unfold addApplied
  split
  · rename_i h
    simp only [List.any_eq_true, decide_eq_true_eq] at h
    obtain ⟨x, hx, he⟩ := h
    constructor
    · exact Or.inl
    · rintro (h | rfl)
      · exact h
      · exact List.mem_map.mpr ⟨x, hx, he⟩
  · simp

theorem associate_fold_owner (bid : Obj → Option (List Byte)) (pid : Option (List Byte)) (b : List Byte) :
    ∀ (qs : List Obj) (ps : List PObj) (po : PObj),
      ownerOf bid b (qs.foldl (fun ps o => associateOne bid pid ((o.vmas.map (·.start)).headD 0) o.hdr ps) ps) = some po →
      ∃ po0, ownerOf bid b ps = some po0 ∧ po.obj = po0.obj ∧
        ∀ i, i ∈ po.applied.map hdrId ↔ i ∈ po0.applied.map hdrId ∨ ∃ q ∈ qs, hdrBuildid q.hdr = b ∧ hdrId q.hdr = i := by
  intro qs
  induction qs with
  | nil => intro ps po h; exact ⟨po, h, rfl, by simp⟩
  | cons q qs ih =>
    intro ps po h
    obtain ⟨po1, h1, h2, h3⟩ := ih _ _ h
    rw [associateOne_owner] at h1
    split at h1
    · rename_i hb
      simp only [Option.map_eq_some_iff] at h1
      obtain ⟨po0, h0, heq⟩ := h1
      subst heq
      refine ⟨po0, h0, h2, fun i => ?_⟩
      rw [h3, addApplied_ids]
      constructor
      · rintro ((h | rfl) | ⟨x, hx, hh⟩)
        · exact Or.inl h
        · exact Or.inr ⟨q, by simp, hb, rfl⟩
        · exact Or.inr ⟨x, by simp [hx], hh⟩
      · rintro (h | ⟨x, hx, hh⟩)
        · exact Or.inl (Or.inl h)
        · rcases List.mem_cons.mp hx with rfl | hx
          · exact Or.inl (Or.inr hh.2.symm)
          · exact Or.inr ⟨x, hx, hh⟩
    · rename_i hb
      refine ⟨po1, h1, h2, fun i => ?_⟩
      rw [h3]
      constructor
      · rintro (h | ⟨x, hx, hh⟩)
        · exact Or.inl h
        · exact Or.inr ⟨x, by simp [hx], hh⟩
      · rintro (h | ⟨x, hx, hh⟩)
        · exact Or.inl h
        · rcases List.mem_cons.mp hx with rfl | hx
          · exact absurd hh.1 hb
          · exact Or.inr ⟨x, hx, hh⟩

/-- The ids the tool knows to be applied to the (first) object with build id `b` are exactly the ids of the
patch objects with that build id. -/
theorem associate_ids {bid : Obj → Option (List Byte)} {pid : Option (List Byte)} {b : List Byte} {objs : List Obj}
    {po : PObj} (h : ownerOf bid b (associate bid pid objs) = some po) :
    ∀ i, i ∈ po.applied.map hdrId ↔ ∃ q ∈ objs, q.isPatch = true ∧ hdrBuildid q.hdr = b ∧ hdrId q.hdr = i := by
  obtain ⟨po0, h0, -, h2⟩ := associate_fold_owner bid pid b _ _ _ h
  have hempty : po0.applied = [] := by
    have := List.mem_of_find?_eq_some h0
    simp only [List.mem_map] at this
    obtain ⟨o, -, rfl⟩ := this
    rfl
  intro i
  rw [h2, hempty]
  simp only [List.map_nil, List.not_mem_nil, false_or, List.mem_filter, and_assoc]

/-! ### C18 -/

/-- A process as far as the tool can see it: memory and map. -/
structure ProcView where
  mem : Mem
  maps : List Mapping

/-- An applied patch in the process: an executable anonymous mapping that starts with a patch header.  Reads
of the header are not cut short. -/
def LivePatch (st : ProcView) (v : Mapping) (hdr : List Byte) : Prop :=
  v ∈ st.maps ∧ objectType 1024 st.mem v = .kpatch hdr


theorem storeLayout_get (hdr : List Byte) (l : Layout) (h : hdr.length = 504) (k : Nat) (hk : k < 164) :
    (storeLayout hdr l)[k]? = hdr[k]? := by
  unfold storeLayout
  simp only
  have h1 : (storeJmpOffset hdr l.jmpOffset).length = 504 ∧ (storeJmpOffset hdr l.jmpOffset)[k]? = hdr[k]? := by
    unfold storeJmpOffset
    split
    · exact ⟨by rw [setField_length _ _ _ _ (by simp only [offJmpOffset]; omega), h],
        setField_getElem? _ _ _ _ _ (by simp only [offJmpOffset]; omega) (by simp only [offJmpOffset]; omega)⟩
    · exact ⟨h, rfl⟩
  generalize storeJmpOffset hdr l.jmpOffset = h1' at *
  simp only [offElfOffset, offUserInfo, offUserUndo, offTotalMem]
  have L2 := setField_length h1' 168 4 l.elfOffset (by omega)
  have L3 := setField_length (setField h1' 168 4 l.elfOffset) 188 4 l.userInfo (by omega)
  have L4 := setField_length (setField (setField h1' 168 4 l.elfOffset) 188 4 l.userInfo) 184 4 l.userUndo (by omega)
  rw [setField_getElem? _ _ _ _ _ (by omega) (by omega), setField_getElem? _ _ _ _ _ (by omega) (by omega),
    setField_getElem? _ _ _ _ _ (by omega) (by omega), setField_getElem? _ _ _ _ _ (by omega) (by omega), h1.2]

theorem take_drop_congr {a b : List Byte} {off n : Nat} (h : ∀ k, off ≤ k → k < off + n → a[k]? = b[k]?) :
    (a.drop off).take n = (b.drop off).take n := by
  apply List.ext_getElem?
  intro k
  by_cases hk : k < n
  · simp only [List.getElem?_take, hk, if_true, List.getElem?_drop]
    exact h (off + k) (by omega) (by omega)
  · simp [List.getElem?_take, hk]

theorem objectType_kpatch {lim : Nat} {m : Mem} {v : Mapping} {hdr : List Byte} (h : objectType lim m v = .kpatch hdr) :
    hdr.length = 1024 ∧ Holds m v.start hdr := by
  unfold objectType at h
  cases hr : memRead lim m v.start 1024 with
  | none => rw [hr] at h; simp at h
  | some buf =>
    rw [hr] at h
    dsimp only at h
    split at h
    · simp only [ObjType.kpatch.injEq] at h
      subst h
      exact memRead_ok _ _ _ _ _ hr
    · split at h <;> simp at h

/-- A header found at the place of a patch names the id and build id of the patch file. -/
theorem header_names_file {m : Mem} {kpta : Nat} {file found : List Byte} {l : Layout}
    (hf : 504 ≤ file.length) (hh : Holds m kpta (storeLayout (file.take hdrSize) l)) (hl : found.length = 1024)
    (hfound : Holds m kpta found) : hdrId found = hdrId file ∧ hdrBuildid found = hdrBuildid file := by
  have hlen : (file.take hdrSize).length = 504 := by rw [List.length_take]; simp only [hdrSize]; omega
  have hsl := (storeLayout_spec (file.take hdrSize) l hlen).1
  have hbyte : ∀ k, k < 164 → found[k]? = file[k]? := by
    intro k hk
    have h1 := hh k (by omega)
    have h2 := hfound k (by omega)
    rw [h1, Option.some.injEq] at h2
    have h3 := storeLayout_get (file.take hdrSize) l hlen k hk
    rw [List.getElem?_eq_getElem (by omega), List.getElem?_take, if_pos (by simp only [hdrSize]; omega)] at h3
    rw [List.getElem?_eq_getElem (by omega), ← h2, h3]
  constructor
  · unfold hdrId kpId
    rw [take_drop_congr fun k h1 h2 => hbyte k (by omega)]
  · unfold hdrBuildid
    rw [take_drop_congr fun k h1 h2 => hbyte k (by omega)]

/-- Histories of a process.  `bid` gives the build ids of the objects.
* `other`: anything that adds no patch: unpatch commands, failed commands, the process running;
* `apply`: a successful patch command for the object with the build id of the patch file, with the applied
  ids found by scanning the process first. -/
inductive PatchHistory (a : Arch) (bid : Obj → Option (List Byte)) : ProcView → Prop
  | start (st : ProcView) : (∀ v hdr, ¬ LivePatch st v hdr) → PatchHistory a bid st
  | other {st st' : ProcView} : PatchHistory a bid st → (∀ v hdr, LivePatch st' v hdr → LivePatch st v hdr) →
      PatchHistory a bid st'
  | apply {st st' : ProcView} {e : ApplyEnv} {file image : List Byte} {v : ElfView} {kpta : Nat} {l : Layout} {po : PObj} :
      PatchHistory a bid st →
      MapsOk (objectType 1024 st.mem) st.maps →
      ownerOf bid (hdrBuildid file) (associate bid none (parseMaps (objectType 1024 st.mem) st.maps)) = some po →
      ApplyAssumptions a e file st.mem v kpta image l →
      (objectApply a e (po.applied.map hdrId) file st.mem).2.2 = true →
      st'.mem = (objectApply a e (po.applied.map hdrId) file st.mem).1 →
      (∀ v hdr, LivePatch st' v hdr → v.start ≠ kpta → LivePatch st v hdr) →
      PatchHistory a bid st'

theorem peek_empty (it : MemIter) (o : ReadOutcome) (m : Mem) (size addr : Nat) (h : it.buflen = 0) :
    (it.peek o m size addr).2 =
      if (iterPread o m it.buf addr).1 < size then none else some ((iterPread o m it.buf addr).2.take size) := by
  unfold MemIter.peek
  rw [if_pos (Or.inl h)]
  dsimp only
  split <;> rfl

/-- Reading the record table at an unmapped address gives an error or, because the failed `pread` is taken for
a success, an end record. -/
theorem readInfos_unmapped (eu : UnapplyEnv) (m : Mem) (h0 : m 0 = none) :
    readInfos eu.reads m eu.fuel (MemIter.init eu.page) 0 0 = none ∨
    readInfos eu.reads m eu.fuel (MemIter.init eu.page) 0 0 = some [] := by
  cases eu.fuel with
  | zero => exact Or.inl rfl
  | succ fuel =>
    unfold readInfos
    have hp : ((MemIter.init eu.page).peek (eu.reads 0) m 48 0).2 = none ∨
        ((MemIter.init eu.page).peek (eu.reads 0) m 48 0).2 = some ((List.replicate eu.page 0).take 48) := by
      have hb : (iterPread (eu.reads 0) m (List.replicate eu.page 0) 0).2 = List.replicate eu.page 0 := by
        unfold iterPread
        split
        · rfl
        · split
          · rfl
          · rename_i lim _ hl
            have : pread lim m 0 (List.replicate eu.page (0 : Byte)).length = [] := by
              cases hn : (List.replicate eu.page (0 : Byte)).length with
              | zero => rfl
              | succ n => simp [pread, hl, h0]
            rw [this]
            rfl
      rw [peek_empty _ _ _ _ _ rfl]
      rw [show (MemIter.init eu.page).buf = List.replicate eu.page 0 from rfl, hb]
      split
      · exact Or.inl rfl
      · exact Or.inr rfl
    generalize (MemIter.init eu.page).peek (eu.reads 0) m 48 0 = q at *
    obtain ⟨q1, q2⟩ := q
    dsimp only at hp
    rcases hp with rfl | rfl
    · exact Or.inl rfl
    · dsimp only
      have hz : ∀ n k, leVal ((List.replicate n (0 : Byte)).take k) = 0 := by
        intro n k
        rw [List.take_replicate]
        generalize min k n = j
        induction j with
        | zero => rfl
        | succ j ih => rw [List.replicate_succ, leVal, ih]; rfl
      have hend : (parseInfo ((List.replicate eu.page (0 : Byte)).take 48)).isEnd = true := by
        simp only [Info.isEnd, parseInfo, List.take_replicate, List.drop_replicate]
        have hz' : ∀ n, leVal (List.replicate n (0 : Byte)) = 0 := by
          intro n
          have := hz n n
          rwa [List.take_replicate, Nat.min_self] at this
        simp only [hz']
        rfl
      rw [if_pos hend]
      exact Or.inr rfl

/-- C18, first half.  A patch whose id is among those applied to the object is refused, and after the rollback that
follows the target's memory is what it was.  The rollback looks for records at the address in `user_info`
of the patch file and unmaps `kpatch_total_mem_sz` bytes: both are 0 in every file the tools write, and
page 0 is not mapped; with no records there is nothing to wait for (`hwait`). -/
theorem C18_second_application_refused (a : Arch) (e : ApplyEnv) (eu : UnapplyEnv) (ids : List (List Byte))
    (file : List Byte) (m : Mem) (hid : hdrId file ∈ ids)
    (hui : leVal (((file.take hdrSize).drop offUserInfo).take 4) = 0)
    (htm : leVal (((file.take hdrSize).drop offTotalMem).take 8) = 0) (h0 : m 0 = none)
    (hwait : ∀ m, (eu.safety m).1 = m) :
    (objectApply a e ids file m).2.2 = false ∧
    (objectUnapply a eu true (objectApply a e ids file m).2.1 (objectApply a e ids file m).1).1 = m := by
  unfold objectApply
  split
  · exact ⟨rfl, rfl⟩
  · rw [if_pos (by simpa [hdrId] using hid)]
    refine ⟨rfl, ?_⟩
    unfold objectUnapply findInfos
    simp only [Bool.not_true, Bool.false_eq_true, if_false, hui, Nat.add_zero]
    rcases readInfos_unmapped eu m h0 with h | h <;> rw [h]
    dsimp only
    split
    · exact hwait m
    · rw [htm]
      simp only [restoreHunks, beq_self_eq_true, Bool.or_true, if_true, Bool.not_true, Bool.false_eq_true, if_false]
      exact hwait m

/-- C18, second half.  After any history no two applied patches have the same build id and the same patch id. -/
theorem C18_at_most_one_per_id {a : Arch} {bid : Obj → Option (List Byte)} {st : ProcView} (h : PatchHistory a bid st) :
    ∀ v w hdr hdr', LivePatch st v hdr → LivePatch st w hdr' → hdrBuildid hdr = hdrBuildid hdr' → hdrId hdr = hdrId hdr' →
      v.start = w.start := by
  induction h with
  | start st h0 => intro v w hdr hdr' hv; exact absurd hv (h0 v hdr)
  | other _ hsub ih => intro v w hdr hdr' hv hw; exact ih v w hdr hdr' (hsub v hdr hv) (hsub w hdr' hw)
  | @apply st st' e file image vw kpta l po _ M hown A hok hmem hrest ih =>
    -- no live patch before has the id of the new one
    have hnew : ∀ v hdr, LivePatch st v hdr → hdrBuildid hdr = hdrBuildid file → hdrId hdr ≠ hdrId file := by
      intro v hdr hv hb hi
      obtain ⟨-, -, -, hp, -⟩ := C56_mappings_grouped _ _ M
      obtain ⟨q, hq, hqp, -, hqh⟩ := hp v hv.1 hdr hv.2
      have hin : hdrId file ∈ po.applied.map hdrId :=
        (associate_ids hown _).mpr ⟨q, hq, hqp, by rw [hqh]; exact hb, by rw [hqh]; exact hi⟩
      have : (objectApply a e (po.applied.map hdrId) file st.mem).2.2 = false := by
        unfold objectApply
        split
        · rfl
        · rw [if_pos (by simpa [hdrId] using hin)]
      rw [hok] at this
      simp at this
    obtain ⟨P, -, -⟩ := objectApply_in_place A hok
    have hthis : ∀ v hdr, LivePatch st' v hdr → v.start = kpta → hdrId hdr = hdrId file ∧ hdrBuildid hdr = hdrBuildid file := by
      intro v hdr hv hk
      obtain ⟨h1, h2⟩ := objectType_kpatch hv.2
      rw [hk, hmem] at h2
      exact header_names_file A.fileLen P.header h1 h2
    intro v w hdr hdr' hv hw hb hi
    by_cases h1 : v.start = kpta
    · by_cases h2 : w.start = kpta
      · rw [h1, h2]
      · obtain ⟨i1, i2⟩ := hthis v hdr hv h1
        exact absurd (hi.symm.trans i1) (hnew w hdr' (hrest w hdr' hw h2) (hb.symm.trans i2))
    · by_cases h2 : w.start = kpta
      · obtain ⟨i1, i2⟩ := hthis w hdr' hw h2
        exact absurd (hi.trans i1) (hnew v hdr (hrest v hdr hv h1) (hb.trans i2))
      · exact ih v w hdr hdr' (hrest v hdr hv h1) (hrest w hdr' hw h2) hb hi


/-! A process with one object, patched once: the hypotheses are met, and one live patch results. -/
namespace ExHistory
open ExRestore

/-- a patch file with the magic and the id "7" -/
def file7 : List Byte := setField (setField file 0 8 0x0031484354_41504b) 8 1 0x37
def maps0 : List Mapping := [⟨0x1000, 0x1100, 5, 8, 77, "prog"⟩]
def maps1 : List Mapping := maps0 ++ [⟨0x20000, 0x22000, 5, 0, 0, "[anonymous]"⟩]
def bid (_ : Obj) : Option (List Byte) := some []
def after : Mem := (objectApply .x86 applyEnv (([] : List (List Byte)).map hdrId) file7 mem).1
theorem after_eq : after = (objectApply .x86 applyEnv (([] : List (List Byte)).map hdrId) file7 mem).1 := by rw [after]
attribute [local irreducible] after
theorem types1 : objectType 1024 after ⟨0x1000, 0x1100, 5, 8, 77, "prog"⟩ = .unknown := by decide +kernel

theorem apply7 : ApplyAssumptions .x86 applyEnv file7 mem ⟨0, 1, 0⟩ 0x20000 image ⟨none, 4096, 4096, 4224, 8192⟩ :=
  { applyOk with
    fileLen := by decide +kernel
    size := by decide +kernel }

theorem types0 : ∀ v ∈ maps0, objectType 1024 mem v = .unknown := by decide +kernel

example : PatchHistory .x86 bid ⟨after, maps1⟩ := by
  refine PatchHistory.apply (st := ⟨mem, maps0⟩) (po := ⟨⟨8, 77, "prog", maps0, false, false, []⟩, [], none⟩)
    (.start _ ?_) ?_ ?_ apply7 ?_ (st' := ⟨after, maps1⟩) after_eq ?_
  · rintro v hdr ⟨hv, hl⟩
    have := types0 v hv
    rw [hl] at this
    simp at this
  · refine ⟨by decide, ?_, ?_⟩
    · intro v hv buf h
      have := types0 v hv
      rw [h] at this
      simp at this
    · intro v hv hd
      simp only [maps0, List.mem_singleton] at hv
      subst hv
      simp at hd
  · decide +kernel
  · decide +kernel
  · rintro v hdr ⟨hv, hl⟩ hne
    simp only [maps1, maps0, List.mem_append, List.mem_singleton] at hv
    rcases hv with rfl | rfl
    · have := hl.symm.trans types1
      simp at this
    · simp at hne

/-- The patch is then seen as applied, with its id. -/
example : ∃ hdr, objectType 1024 after ⟨0x20000, 0x22000, 5, 0, 0, "[anonymous]"⟩ = .kpatch hdr ∧ hdrId hdr = [0x37] := by
  have h : (match objectType 1024 after ⟨0x20000, 0x22000, 5, 0, 0, "[anonymous]"⟩ with
    | .kpatch hdr => decide (hdrId hdr = [0x37])
    | _ => false) = true := by decide +kernel
  split at h
  · rename_i hdr he
    exact ⟨hdr, he, by simpa using h⟩
  · simp at h

/-- A second application of it is refused by `C18_second_application_refused`. -/
example : hdrId file7 ∈ [[(0x37 : Byte)]] ∧ leVal (((file7.take hdrSize).drop offUserInfo).take 4) = 0 ∧
    leVal (((file7.take hdrSize).drop offTotalMem).take 8) = 0 ∧ after 0 = none := by decide +kernel

end ExHistory

/-! ### C19 -/

/-- The memory after applying the jobs one after the other, ignoring failures. -/
def applyAll (a : Arch) (m : Mem) : List ApplyJob → Mem
  | [] => m
  | j :: js => applyAll a (objectApply a j.env j.ids j.file m).1 js

/-- C19, partial.  When the command succeeds every object was patched; when it fails, there is a failing object such
that all objects before it were patched and stay so, the failing one was rolled back, and the ones after
it were not touched.  Missing: the objects before it are not restored (`C19_violated_two_objects`). -/
theorem C19_failing_object_rolled_back_partial (a : Arch) : ∀ (jobs : List ApplyJob) (m : Mem),
    (∀ n, (applyPatches a m jobs).2 = some n → n = jobs.length ∧ (applyPatches a m jobs).1 = applyAll a m jobs) ∧
    ((applyPatches a m jobs).2 = none → ∃ pre j post, jobs = pre ++ j :: post ∧
      (objectApply a j.env j.ids j.file (applyAll a m pre)).2.2 = false ∧
      (applyPatches a m jobs).1 = (objectUnapply a j.undo true
        (objectApply a j.env j.ids j.file (applyAll a m pre)).2.1
        (objectApply a j.env j.ids j.file (applyAll a m pre)).1).1) := by
  intro jobs
  induction jobs with
  | nil =>
    intro m
    refine ⟨fun n h => ?_, fun h => ?_⟩
    · simp only [applyPatches, Option.some.injEq] at h
      exact ⟨by simp [← h], rfl⟩
    · simp [applyPatches] at h
  | cons j js ih =>
    intro m
    unfold applyPatches
    simp only
    cases hr : (objectApply a j.env j.ids j.file m).2.2 with
    | true =>
      simp only [if_true]
      obtain ⟨i1, i2⟩ := ih (objectApply a j.env j.ids j.file m).1
      refine ⟨fun n h => ?_, fun h => ?_⟩
      · simp only [Option.map_eq_some_iff] at h
        obtain ⟨k, hk, rfl⟩ := h
        obtain ⟨e1, e2⟩ := i1 k hk
        exact ⟨by simp [e1], by rw [e2]; rfl⟩
      · simp only [Option.map_eq_none_iff] at h
        obtain ⟨pre, j', post, e1, e2, e3⟩ := i2 h
        exact ⟨j :: pre, j', post, by simp [e1], e2, e3⟩
    | false =>
      simp only [Bool.false_eq_true, if_false]
      exact ⟨by simp, fun _ => ⟨[], j, js, rfl, hr, rfl⟩⟩

/-- C19 for a process with a single object to patch (or whose first object fails): when the command fails and
the rollback could be done, memory is what it was. -/
theorem C19_single_object_partial {a : Arch} {j : ApplyJob} {js : List ApplyJob} {m0 : Mem} {v : ElfView} {kpta : Nat}
    {image : List Byte} {l : Layout}
    (A : ApplyAssumptions a j.env j.file m0 v kpta image l) (hflag : FileRecordsUnflagged j.file v)
    (halloc : (objectApply a j.env j.ids j.file m0).2.1.kpta ≠ 0)
    (hfail : (objectApply a j.env j.ids j.file m0).2.2 = false)
    (hquiet1 : ∀ m, (j.env.safety m).1 = m) (hquiet2 : ∀ m, (j.undo.safety m).1 = m)
    (hroll : (objectUnapply a j.undo true (objectApply a j.env j.ids j.file m0).2.1
      (objectApply a j.env j.ids j.file m0).1).2 = true) :
    (applyPatches a m0 (j :: js)).2 = none ∧ (applyPatches a m0 (j :: js)).1 = m0 := by
  unfold applyPatches
  simp only [hfail, Bool.false_eq_true, if_false, true_and]
  exact C02_failed_apply_rolled_back_exactly_partial A hflag halloc hfail hquiet1 hquiet2 hroll

open ExRestore ExRollback ExStack in
/-- C19 is false: the first object is patched, the second one fails and is rolled back, the command reports
failure, and the first object stays patched: its entry at 0x1000 is a jump now. -/
theorem C19_violated_two_objects :
    let j1 : ApplyJob := ⟨applyEnv, unapplyEnv, [], file⟩
    let j2 : ApplyJob := ⟨{ env2 with hunk := fun _ => ⟨100, 100, 2⟩ }, unapplyEnv, [], file2⟩
    (applyPatches .x86 mem [j1, j2]).2 = none ∧ mem 0x1000 = some 0 ∧
    (applyPatches .x86 mem [j1, j2]).1 0x1000 = some 0xe9 := by
  decide +kernel

open ExRestore ExRollback in
example : (applyPatches .x86 mem [⟨applyEnv, unapplyEnv, [], file⟩]).2 = some 1 ∧
    (applyPatches .x86 mem [⟨cutEnv, unapplyEnv, [], file⟩]).2 = none := by decide +kernel

/-! ### C49 -/

theorem restoreHunks_frame (a : Arch) (fs : Nat → HunkFault) (chk : Bool) (undo : Nat) (x : Nat) :
    ∀ (is : List Info) (m : Mem) (n : Nat), ¬ IsEntryByte a is x → (restoreHunks a fs chk undo m n is).1 x = m x := by
  intro is
  induction is with
  | nil => intros; rfl
  | cons i is ih =>
    intro m n hx
    have htail : ¬ IsEntryByte a is x := by
      rintro ⟨j, hj, h⟩
      exact hx ⟨j, by simp [hj], h⟩
    unfold restoreHunks
    split
    · exact ih m (n + 1) htail
    · rename_i hc
      have hnot : ¬ InRange x i.daddr a.hunkSize := by
        intro hr
        refine hx ⟨i, by simp, ?_, hr⟩
        rw [isOld_iff]
        cases hn : i.isNew with
        | false => rfl
        | true => simp [hn] at hc
      have hf := memCpy_frame (fs n).rlim (fs n).wlim m i.daddr (undo + n * a.hunkSize) a.hunkSize x hnot
      dsimp only
      split
      · exact hf
      · rw [ih _ (n + 1) htail]; exact hf

/-- The removal from one object changes nothing outside the entries named by its records and its patch region. -/
theorem objectUnapply_frame (a : Arch) (e : UnapplyEnv) (chk : Bool) (l : LocalObj) (m : Mem) (x : Nat)
    (hq : ∀ m, (e.safety m).1 = m)
    (hx : ∀ infos hdr, findInfos e l m = some infos → l.hdr = some hdr →
      ¬ IsEntryByte a infos x ∧ ¬ InRange x l.kpta (leVal ((hdr.drop offTotalMem).take 8))) :
    (objectUnapply a e chk l m).1 x = m x := by
  unfold objectUnapply
  cases hf : findInfos e l m with
  | none => simp
  | some infos =>
    cases hh : l.hdr with
    | none => simp
    | some hdr =>
      obtain ⟨h1, h2⟩ := hx infos hdr hf hh
      dsimp only
      have hr := restoreHunks_frame a e.hunk chk (l.kpta + leVal ((hdr.drop offUserUndo).take 4)) x infos (e.safety m).1 0 h1
      rw [hq] at *
      split
      · rfl
      · split
        · exact hr
        · split
          · exact hr
          · simp only [munmap]
            rw [if_neg (by simpa [InRange] using h2)]
            exact hr

/-- The object is one the unpatch command is about: not itself a patch, the patch with the given id was found for
it, and it matches the selection given by the user. -/
def Selected (bid : Obj → Option (List Byte)) (nameBytes : Obj → List Byte) (sel : List (List Byte)) (o : PObj) : Prop :=
  o.target ≠ none ∧ o.obj.isPatch = false ∧ o.applied ≠ [] ∧
  (sel = [] ∨ ∃ s ∈ sel, bid o.obj ≠ none ∧ (bid o.obj = some s ∨ nameBytes o.obj = s))

instance (bid : Obj → Option (List Byte)) (nameBytes : Obj → List Byte) (sel : List (List Byte)) (o : PObj) :
    Decidable (Selected bid nameBytes sel o) := inferInstanceAs (Decidable (_ ∧ _))

theorem shouldUnapply_iff (bid : Obj → Option (List Byte)) (nameBytes : Obj → List Byte) (sel : List (List Byte)) (o : Obj) :
    shouldUnapply bid nameBytes sel o = true ↔
      sel = [] ∨ ∃ s ∈ sel, bid o ≠ none ∧ (bid o = some s ∨ nameBytes o = s) := by
  unfold shouldUnapply
  cases sel with
  | nil => simp
  | cons s ss =>
    simp only [List.isEmpty_cons, Bool.false_eq_true, if_false]
    cases hb : bid o with
    | none => simp
    | some b =>
      simp

/-- `x` may be modified when the patch of object `o` is removed: it lies in the patch region or in an entry named by
the records read for that patch. -/
def TouchedBy (a : Arch) (o : PObj) (x : Nat) : Prop :=
  ∃ kpta hdr, o.target = some (kpta, hdr) ∧
    (InRange x kpta (leVal (((hdr.take hdrSize).drop offTotalMem).take 8)) ∨
     ∃ e m f infos, findInfos e ⟨kpta, some (hdr.take hdrSize), none, f⟩ m = some infos ∧ IsEntryByte a infos x)

theorem target_from_patch_one (bid : Obj → Option (List Byte)) (pid : Option (List Byte)) (kpta : Nat) (hdr : List Byte)
    (Q : PObj → Prop)
    (hQ : ∀ o, Q o → bid o.obj = some (hdrBuildid hdr) → Q { o with
      applied := addApplied o.applied hdr
      target := if pid = some (hdrId hdr) then some (kpta, hdr) else o.target }) :
    ∀ ps : List PObj, (∀ p ∈ ps, Q p) → ∀ p ∈ associateOne bid pid kpta hdr ps, Q p := by
  intro ps
  induction ps with
  | nil => intro _ p hp; simp [associateOne] at hp
  | cons o os ih =>
    intro h p hp
    unfold associateOne at hp
    split at hp
    · rename_i hb
      rcases List.mem_cons.mp hp with rfl | hp
      · exact hQ o (h o (by simp)) hb
      · exact h p (by simp [hp])
    · rcases List.mem_cons.mp hp with rfl | hp
      · exact h p (by simp)
      · exact ih (fun q hq => h q (by simp [hq])) p hp

/-- The target of an unpatch command is a patch found in the process, with the given id and the build id of the
object. -/
theorem target_is_patch {bid : Obj → Option (List Byte)} {pid : List Byte} {objs : List Obj} {o : PObj}
    (ho : o ∈ associate bid (some pid) objs) {kpta : Nat} {hdr : List Byte} (ht : o.target = some (kpta, hdr)) :
    hdrId hdr = pid ∧ bid o.obj = some (hdrBuildid hdr) ∧ o.obj ∈ objs ∧
    ∃ q ∈ objs, q.isPatch = true ∧ q.hdr = hdr ∧ kpta = (q.vmas.map (·.start)).headD 0 := by
  let Q : PObj → Prop := fun o => o.obj ∈ objs ∧ ∀ kpta hdr, o.target = some (kpta, hdr) →
    hdrId hdr = pid ∧ bid o.obj = some (hdrBuildid hdr) ∧
    ∃ q ∈ objs, q.isPatch = true ∧ q.hdr = hdr ∧ kpta = (q.vmas.map (·.start)).headD 0
  have key : ∀ (qs : List Obj), (∀ q ∈ qs, q ∈ objs ∧ q.isPatch = true) → ∀ ps : List PObj, (∀ p ∈ ps, Q p) →
      ∀ p ∈ qs.foldl (fun ps o => associateOne bid (some pid) ((o.vmas.map (·.start)).headD 0) o.hdr ps) ps, Q p := by
    intro qs
    induction qs with
    | nil => intro _ ps h; exact h
    | cons q qs ih =>
      intro hq ps h
      apply ih (fun x hx => hq x (by simp [hx]))
      apply target_from_patch_one _ _ _ _ Q _ _ h
      rintro p ⟨hp1, hp2⟩ hb
      refine ⟨hp1, fun kpta hdr he => ?_⟩
      dsimp only at he
      split at he
      · rename_i hid
        simp only [Option.some.injEq, Prod.mk.injEq] at he hid
        obtain ⟨rfl, rfl⟩ := he
        exact ⟨hid.symm, hb, q, (hq q (by simp)).1, (hq q (by simp)).2, rfl, rfl⟩
      · exact hp2 kpta hdr he
  have := key (objs.filter (·.isPatch)) (fun q hq => by simpa using List.mem_filter.mp hq)
    (objs.map fun o => ⟨o, [], none⟩)
    (by
      intro p hp
      obtain ⟨x, hx, rfl⟩ := List.mem_map.mp hp
      exact ⟨hx, by simp⟩)
    o ho
  obtain ⟨h1, h2⟩ := this
  obtain ⟨a1, a2, a3⟩ := h2 kpta hdr ht
  exact ⟨a1, a2, h1, a3⟩

theorem unapplyPatches_spec (a : Arch) (bid : Obj → Option (List Byte)) (nameBytes : Obj → List Byte)
    (sel : List (List Byte)) (env : Nat → UnapplyEnv) (hq : ∀ k m, ((env k).safety m).1 = m) :
    ∀ (ps : List PObj) (k : Nat) (m : Mem),
      (∀ x, (∀ o ∈ ps, Selected bid nameBytes sel o → ¬ TouchedBy a o x) →
        (unapplyPatches a bid nameBytes sel env k m ps).1 x = m x) ∧
      (∀ n, (unapplyPatches a bid nameBytes sel env k m ps).2 = some n →
        n = (ps.filter fun o => Selected bid nameBytes sel o).length) := by
  intro ps
  induction ps with
  | nil =>
    intro k m
    refine ⟨fun _ _ => rfl, fun n h => ?_⟩
    simp only [unapplyPatches, Option.some.injEq] at h
    simp [← h]
  | cons o os ih =>
    intro k m
    have skip : ¬ Selected bid nameBytes sel o →
        (∀ x, (∀ o' ∈ o :: os, Selected bid nameBytes sel o' → ¬ TouchedBy a o' x) →
          (unapplyPatches a bid nameBytes sel env (k + 1) m os).1 x = m x) ∧
        (∀ n, (unapplyPatches a bid nameBytes sel env (k + 1) m os).2 = some n →
          n = ((o :: os).filter fun o => Selected bid nameBytes sel o).length) := by
      intro hs
      obtain ⟨i1, i2⟩ := ih (k + 1) m
      refine ⟨fun x hx => i1 x fun o' ho' => hx o' (by simp [ho']), fun n h => ?_⟩
      rw [i2 n h, List.filter_cons_of_neg (by simpa using hs)]
    unfold unapplyPatches
    cases ht : o.target with
    | none => exact skip fun h => h.1 ht
    | some t =>
      obtain ⟨kpta, hdr⟩ := t
      dsimp only
      split
      · rename_i hc
        apply skip
        rintro ⟨-, h2, h3, h4⟩
        rw [← shouldUnapply_iff] at h4
        simp [h2, h3, h4] at hc
      · rename_i hc
        simp only [Bool.or_eq_true, not_or, Bool.not_eq_true, Bool.not_eq_false'] at hc
        obtain ⟨⟨c1, c2⟩, c3⟩ := hc
        have hsel : Selected bid nameBytes sel o :=
          ⟨by rw [ht]; simp, c1, by simpa using c2, (shouldUnapply_iff _ _ _ _).mp (by simpa using c3)⟩
        have hfr : ∀ x, ¬ TouchedBy a o x → (objectUnapply a (env k) false
            ⟨kpta, some (hdr.take hdrSize), none, o.applied.any fun h => hdrId h = hdrId hdr⟩ m).1 x = m x := by
          intro x hx
          apply objectUnapply_frame _ _ _ _ _ _ (hq k)
          intro infos hdr' hf hh
          simp only [Option.some.injEq] at hh
          subst hh
          exact ⟨fun h => hx ⟨kpta, hdr, ht, Or.inr ⟨_, _, _, infos, hf, h⟩⟩, fun h => hx ⟨kpta, hdr, ht, Or.inl h⟩⟩
        generalize hr : objectUnapply a (env k) false
            ⟨kpta, some (hdr.take hdrSize), none, o.applied.any fun h => hdrId h = hdrId hdr⟩ m = r at *
        cases hrr : r.2 with
        | true =>
          simp only [if_true]
          obtain ⟨i1, i2⟩ := ih (k + 1) r.1
          refine ⟨fun x hx => ?_, fun n h => ?_⟩
          · rw [i1 x fun o' ho' => hx o' (by simp [ho'])]
            exact hfr x (hx o (by simp) hsel)
          · simp only [Option.map_eq_some_iff] at h
            obtain ⟨j, hj, rfl⟩ := h
            rw [i2 j hj, List.filter_cons_of_pos (by simpa using hsel), List.length_cons]
        | false =>
          simp only [Bool.false_eq_true, if_false]
          exact ⟨fun x hx => hfr x (hx o (by simp) hsel), by simp⟩

/-- C49.  An unpatch command for patch id `pid` with selection `sel`:
* every byte it changes belongs to the patch (region, or entry named by its records) of an object that
  matches the selection, for which a patch with that id and the object's own build id was found in the
  process;
* when it succeeds the number it reports is the number of those objects. -/
theorem C49_only_selected_objects (a : Arch) (bid : Obj → Option (List Byte)) (nameBytes : Obj → List Byte)
    (sel : List (List Byte)) (pid : List Byte) (objs : List Obj) (env : Nat → UnapplyEnv) (m : Mem)
    (hq : ∀ k m, ((env k).safety m).1 = m) :
    let ps := associate bid (some pid) objs
    let r := unapplyPatches a bid nameBytes sel env 0 m ps
    (∀ x, r.1 x ≠ m x → ∃ o ∈ ps, Selected bid nameBytes sel o ∧ TouchedBy a o x ∧
      ∃ kpta hdr, o.target = some (kpta, hdr) ∧ hdrId hdr = pid ∧ bid o.obj = some (hdrBuildid hdr) ∧ o.obj ∈ objs ∧
        ∃ q ∈ objs, q.isPatch = true ∧ q.hdr = hdr ∧ kpta = (q.vmas.map (·.start)).headD 0) ∧
    (∀ n, r.2 = some n → n = (ps.filter fun o => Selected bid nameBytes sel o).length) := by
  intro ps r
  obtain ⟨s1, s2⟩ := unapplyPatches_spec a bid nameBytes sel env hq ps 0 m
  refine ⟨fun x hx => ?_, s2⟩
  by_contra hno
  apply hx
  apply s1
  intro o ho hs ht
  apply hno
  refine ⟨o, ho, hs, ht, ?_⟩
  have ht' := ht
  obtain ⟨kpta, hdr, h1, -⟩ := ht
  exact ⟨kpta, hdr, h1, target_is_patch ho h1⟩

open ExRestore ExHistory in
/-- A run: the patch of `ExHistory` is found by its id and removed, one object is reported; with another id or with
a selection that does not match nothing happens. -/
example :
    let objs := parseMaps (objectType 1024 after) maps1
    (unapplyPatches .x86 bid (fun _ => []) [] (fun _ => unapplyEnv) 0 after (associate bid (some [0x37]) objs)).2 = some 1 ∧
    (unapplyPatches .x86 bid (fun _ => []) [] (fun _ => unapplyEnv) 0 after (associate bid (some [0x38]) objs)).2 = some 0 ∧
    (unapplyPatches .x86 bid (fun _ => []) [[1]] (fun _ => unapplyEnv) 0 after (associate bid (some [0x37]) objs)).2 = some 0 := by
  decide +kernel

/-- C56: which mappings are taken for applied patches: exactly the anonymous ones that can be read and executed but not
written, have room for a patch header, and begin with the magic number of a patch; the header kept for the patch is the
beginning of the mapping. -/
theorem C56_patches_recognised (m : Mem) (v : Mapping) (hdr : List Byte) :
    objectType 1024 m v = .kpatch hdr ↔
      hdr.length = 1024 ∧ Holds m v.start hdr ∧
      v.prot = 1 + 4 ∧ (∃ rest, v.name.toList = "[anonymous]".toList ++ rest) ∧ v.start + 504 ≤ v.stop ∧
      (∃ rest, hdr = [0x4b, 0x50, 0x41, 0x54, 0x43, 0x48, 0x31, 0x00] ++ rest) := by
  have hmag : ∀ buf : List Byte, buf.take 8 = kpatchMagic ↔
      ∃ rest, buf = [0x4b, 0x50, 0x41, 0x54, 0x43, 0x48, 0x31, 0x00] ++ rest := by
    intro buf
    constructor
    · intro h
      refine ⟨buf.drop 8, ?_⟩
      have := List.take_append_drop 8 buf
      rw [h] at this
      exact this.symm
    · rintro ⟨rest, rfl⟩
      rfl
  have hpre : ("[anonymous]".toList.isPrefixOf v.name.toList = true) ↔ ∃ rest, v.name.toList = "[anonymous]".toList ++ rest := by
    rw [List.isPrefixOf_iff_prefix]
    constructor
    · rintro ⟨t, ht⟩; exact ⟨t, ht.symm⟩
    · rintro ⟨t, ht⟩; exact ⟨t, ht.symm⟩
  constructor
  · intro h
    unfold objectType at h
    cases hr : memRead 1024 m v.start 1024 with
    | none => rw [hr] at h; cases h
    | some buf =>
      rw [hr] at h
      dsimp only at h
      split at h
      · rename_i hc
        cases h
        obtain ⟨h1, h2⟩ := memRead_ok _ _ _ _ _ hr
        have := hc.2.2.1
        unfold hdrSize at this
        exact ⟨h1, h2, hc.1, hpre.mp hc.2.1, by omega, (hmag _).mp hc.2.2.2⟩
      · split at h <;> cases h
  · rintro ⟨h1, h2, h3, h4, h5, h6⟩
    have hmap : Mapped m v.start 1024 := by
      intro k hk
      rw [h2 k (by omega)]
      simp
    obtain ⟨bs, hb, hl, hh⟩ := memRead_full (lim := 1024) (Nat.le_refl _) hmap
    have : bs = hdr := by
      apply List.ext_getElem (by omega)
      intro k hk1 hk2
      have a := hh k hk1
      rw [h2 k hk2] at a
      simpa using a.symm
    subst this
    unfold objectType
    rw [hb]
    dsimp only
    rw [if_pos ⟨h3, hpre.mpr h4, by unfold hdrSize; omega, (hmag _).mpr h6⟩]

end Verif
