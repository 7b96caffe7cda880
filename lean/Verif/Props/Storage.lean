import Verif.Model.Storage
import Verif.Props.PatchFile
/-
C36: patch storage lookups.
-/
namespace Verif

/-- A freshly opened storage directory. -/
def Storage.fresh : Storage := .dir [] fun _ => 0

/-- How many patch files were opened for a build id. -/
def Storage.opens : Storage → List Byte → Nat
  | .single _, _ => 0
  | .dir _ o, b => o b

/-- The patch `c` is what the storage directory held under the name of the build id `b`: the file `<b>.kpatch`, or
`<b>/latest/kpatch.bin` with the patch level stored into its header. -/
def StoredAs (fs : Fs) (b c : List Byte) : Prop :=
  (fs.flat b = .file c ∧ acceptFile c = true) ∨
  ∃ c0 l, fs.latest b = .file c0 ∧ acceptFile c0 = true ∧ fs.level b = some l ∧ c = setField c0 192 4 l

/-- the answer of the file system alone -/
def fsAnswer (fs : Fs) (b : List Byte) : Answer :=
  match (openPatch fs b).1 with
  | none => .openError
  | some p => .found p.patch

theorem openAt_some {e : FsEntry} {c : List Byte} (h : openAt e = some c) : e = .file c := by
  cases e with
  | absent => simp [openAt] at h
  | error => simp [openAt] at h
  | file c' =>
    simp only [openAt] at h
    split at h
    · simp at h
    · simpa using h

theorem openPatch_some {fs : Fs} {b : List Byte} {p : CachedPatch} (h : (openPatch fs b).1 = some p) :
    p.size.isSome = true ∧ ∃ c, p.patch = some c ∧ StoredAs fs b c := by
  unfold openPatch at h
  cases h1 : openAt (fs.latest b) with
  | some c =>
    rw [h1] at h
    dsimp only at h
    split at h
    · rename_i ha
      cases hl : fs.level b with
      | none => rw [hl] at h; simp at h
      | some l =>
        rw [hl] at h
        simp only [Option.some.injEq] at h
        subst h
        exact ⟨rfl, _, rfl, Or.inr ⟨c, l, openAt_some h1, ha, hl, rfl⟩⟩
    · simp at h
  | none =>
    rw [h1] at h
    dsimp only at h
    cases h2 : openAt (fs.flat b) with
    | none => rw [h2] at h; simp at h
    | some c =>
      rw [h2] at h
      dsimp only at h
      split at h
      · rename_i ha
        simp only [Option.some.injEq] at h
        subst h
        exact ⟨rfl, _, rfl, Or.inl ⟨openAt_some h2, ha⟩⟩
      · simp at h

/-- The cache entry of `b` can be relied upon. -/
def Cached (s : Storage) (b c : List Byte) : Prop :=
  match s with
  | .single f => singleBuildid f = b ∧ c = f
  | .dir cache _ => ∃ p, cache.lookup b = some p ∧ p.size.isSome = true ∧ p.patch = some c

theorem loadPatch_cached {s : Storage} {b c : List Byte} (h : Cached s b c) (fs : Fs) :
    loadPatch fs b s = (.found (some c), s) := by
  cases s with
  | single f =>
    obtain ⟨h1, h2⟩ := h
    simp [loadPatch, getPatch, h1, h2]
  | dir cache o =>
    obtain ⟨p, h1, h2, h3⟩ := h
    simp [loadPatch, getPatch, h1, h2, h3]

theorem lookup_cons_ne {b b' : List Byte} {p : CachedPatch} {cache : List (List Byte × CachedPatch)} (h : b ≠ b') :
    ((b', p) :: cache).lookup b = cache.lookup b := by
  rw [List.lookup_cons]
  have : (b == b') = false := by simpa using h
  rw [this]

theorem loadPatch_hit {cache : List (List Byte × CachedPatch)} {o : List Byte → Nat} {b : List Byte} {p : CachedPatch}
    (h : cache.lookup b = some p) (fs : Fs) :
    loadPatch fs b (.dir cache o) = (if p.size.isSome then .found p.patch else .notFound, .dir cache o) := by
  simp [loadPatch, getPatch, h]

theorem loadPatch_fail {cache : List (List Byte × CachedPatch)} {o : List Byte → Nat} {b : List Byte} {fs : Fs}
    (h : cache.lookup b = none) (hp : (openPatch fs b).1 = none) :
    loadPatch fs b (.dir cache o) =
      (.openError, .dir cache fun x => if x = b then o x + (openPatch fs b).2 else o x) := by
  simp [loadPatch, getPatch, h, hp]

theorem loadPatch_new {cache : List (List Byte × CachedPatch)} {o : List Byte → Nat} {b : List Byte} {fs : Fs}
    {p : CachedPatch} (h : cache.lookup b = none) (hp : (openPatch fs b).1 = some p) :
    loadPatch fs b (.dir cache o) =
      (.found p.patch, .dir ((b, p) :: cache) fun x => if x = b then o x + (openPatch fs b).2 else o x) := by
  simp [loadPatch, getPatch, h, hp, (openPatch_some hp).1]

theorem loadPatch_single (f : List Byte) (fs : Fs) (b : List Byte) :
    loadPatch fs b (.single f) = (if singleBuildid f = b then .found (some f) else .notFound, .single f) := by
  by_cases h : singleBuildid f = b <;> simp [loadPatch, getPatch, h]

theorem loadPatch_keeps {s : Storage} {b c : List Byte} (h : Cached s b c) (fs : Fs) (b' : List Byte) :
    Cached (loadPatch fs b' s).2 b c ∧ (loadPatch fs b' s).2.opens b = s.opens b := by
  by_cases hb : b = b'
  · subst hb
    rw [loadPatch_cached h]
    exact ⟨h, rfl⟩
  cases s with
  | single f =>
    rw [loadPatch_single]
    exact ⟨h, rfl⟩
  | dir cache o =>
    cases hl : cache.lookup b' with
    | some p => rw [loadPatch_hit hl]; exact ⟨h, rfl⟩
    | none =>
      cases hp : (openPatch fs b').1 with
      | none => rw [loadPatch_fail hl hp]; exact ⟨h, by simp [Storage.opens, hb]⟩
      | some p =>
        rw [loadPatch_new hl hp]
        refine ⟨?_, by simp [Storage.opens, hb]⟩
        obtain ⟨q, h1, h2⟩ := h
        exact ⟨q, by rw [lookup_cons_ne hb]; exact h1, h2⟩

theorem loads_keeps {b c : List Byte} : ∀ (qs : List (Fs × List Byte)) {s : Storage}, Cached s b c →
    Cached (loads s qs).2 b c ∧ (loads s qs).2.opens b = s.opens b := by
  intro qs
  induction qs with
  | nil => intro s h; exact ⟨h, rfl⟩
  | cons q qs ih =>
    intro s h
    obtain ⟨k1, k2⟩ := loadPatch_keeps h q.1 q.2
    obtain ⟨i1, i2⟩ := ih k1
    exact ⟨i1, i2.trans k2⟩

/-- States reachable from a fresh directory by a history of loads: every cache entry comes from the file system. -/
def FromFs (hist : List (Fs × List Byte)) (s : Storage) : Prop :=
  match s with
  | .single _ => False
  | .dir cache _ => ∀ b p, cache.lookup b = some p → ∃ fs, (fs, b) ∈ hist ∧ (openPatch fs b).1 = some p

theorem loadPatch_fromFs {hist : List (Fs × List Byte)} {s : Storage} (h : FromFs hist s) (fs : Fs) (b : List Byte) :
    FromFs (hist ++ [(fs, b)]) (loadPatch fs b s).2 ∧
    (∀ x, (loadPatch fs b s).1 = .found x → ∃ fs', (fs', b) ∈ hist ++ [(fs, b)] ∧ ∃ c, x = some c ∧ StoredAs fs' b c ∧
      Cached (loadPatch fs b s).2 b c) := by
  cases s with
  | single f => exact absurd h (by simp [FromFs])
  | dir cache o =>
    cases hl : cache.lookup b with
    | some p =>
      rw [loadPatch_hit hl]
      obtain ⟨fs', hm, hp⟩ := h b p hl
      obtain ⟨p1, c, p2, p3⟩ := openPatch_some hp
      refine ⟨fun b' p' h' => ?_, fun x hx => ?_⟩
      · obtain ⟨f, h1, h2⟩ := h b' p' h'
        exact ⟨f, by simp [h1], h2⟩
      · rw [if_pos p1] at hx
        simp only [Answer.found.injEq] at hx
        exact ⟨fs', by simp [hm], c, by rw [← hx, p2], p3, p, hl, p1, p2⟩
    | none =>
      cases hp : (openPatch fs b).1 with
      | none =>
        rw [loadPatch_fail hl hp]
        refine ⟨fun b' p' h' => ?_, fun x hx => by simp at hx⟩
        obtain ⟨f, h1, h2⟩ := h b' p' h'
        exact ⟨f, by simp [h1], h2⟩
      | some p =>
        rw [loadPatch_new hl hp]
        obtain ⟨p1, c, p2, p3⟩ := openPatch_some hp
        refine ⟨fun b' p' h' => ?_, fun x hx => ?_⟩
        · by_cases hb : b' = b
          · subst hb
            simp only [List.lookup_cons_self, Option.some.injEq] at h'
            subst h'
            exact ⟨fs, by simp, hp⟩
          · rw [lookup_cons_ne hb] at h'
            obtain ⟨f, h1, h2⟩ := h b' p' h'
            exact ⟨f, by simp [h1], h2⟩
        · simp only [Answer.found.injEq] at hx
          exact ⟨fs, by simp, c, by rw [← hx, p2], p3, p, by simp, p1, p2⟩

theorem loads_fromFs : ∀ (qs hist : List (Fs × List Byte)) {s : Storage}, FromFs hist s →
    FromFs (hist ++ qs) (loads s qs).2 := by
  intro qs
  induction qs with
  | nil => intro hist s h; simpa [loads] using h
  | cons q qs ih =>
    intro hist s h
    have := ih (hist ++ [q]) (loadPatch_fromFs h q.1 q.2).1
    simpa [loads] using this

theorem fresh_fromFs : FromFs [] Storage.fresh := by intro b p h; simp at h

/-- C36, the part that holds.  A storage directory, any history of patch loads over any build ids, the file system
changing in any way between them:
* a patch that is returned is the content of a file stored under the name of the build id asked for, at the time of this
  or an earlier query for it, and was verified;
* from then on, after any further queries, asking for the build id returns that patch again and opens no file.
A single-file storage always gives the same answer and returns its patch exactly for the (first 40 bytes of the) build id in
the header of the file.
Missing: failed lookups are repeated, the build id inside a file of a directory is not compared, and a
query for the mere existence spoils a later load (violations below). -/
theorem C36_found_stays_partial :
    (∀ (hist : List (Fs × List Byte)) (fs : Fs) (b : List Byte) (x : Option (List Byte)),
      let r := loadPatch fs b (loads Storage.fresh hist).2
      r.1 = .found x →
      (∃ fs', (fs', b) ∈ hist ++ [(fs, b)] ∧ ∃ c, x = some c ∧ StoredAs fs' b c) ∧
      ∀ (later : List (Fs × List Byte)) (fs' : Fs),
        let r' := loadPatch fs' b (loads r.2 later).2
        r'.1 = .found x ∧ r'.2.opens b = r.2.opens b) ∧
    (∀ (f : List Byte) (fs : Fs) (b : List Byte),
      (loadPatch fs b (.single f)) = (if (hdrBuildid f).take 40 = b then .found (some f) else .notFound, .single f)) := by
  refine ⟨?_, ?_⟩
  · intro hist fs b x r hx
    have hf := loads_fromFs hist [] fresh_fromFs
    rw [List.nil_append] at hf
    obtain ⟨-, h2⟩ := loadPatch_fromFs hf fs b
    obtain ⟨fs', hm, c, rfl, hs, hc⟩ := h2 x hx
    refine ⟨⟨fs', hm, c, rfl, hs⟩, fun later fs'' => ?_⟩
    obtain ⟨k1, k2⟩ := loads_keeps later hc
    intro r'
    have hr' : r' = _ := loadPatch_cached k1 fs''
    rw [hr']
    exact ⟨rfl, k2⟩
  · intro f fs b
    exact loadPatch_single f fs b

/-- C36: a patch that is stored is returned: the file of the latest level if there is one (and its level can be read), else the flat
file. -/
theorem C36_stored_is_returned (fs : Fs) (b c : List Byte) (ha : acceptFile c = true) :
    (∀ l, fs.latest b = .file c → fs.level b = some l → (loadPatch fs b Storage.fresh).1 = .found (some (setField c 192 4 l))) ∧
    ((∀ c', fs.latest b = .file c' → c'.length < 504) → fs.flat b = .file c → (loadPatch fs b Storage.fresh).1 = .found (some c)) := by
  have hlen : ¬ c.length < hdrSize := by
    intro h
    unfold acceptFile at ha
    rw [if_pos h] at ha
    cases ha
  have ho : openAt (.file c) = some c := by rw [openAt, if_neg hlen]
  refine ⟨fun l h1 h2 => ?_, fun h1 h2 => ?_⟩
  · simp [loadPatch, getPatch, Storage.fresh, openPatch, h1, ho, ha, h2]
  · have hn : openAt (fs.latest b) = none := by
      cases hf : fs.latest b with
      | file c' => rw [openAt, if_pos (show c'.length < hdrSize from h1 c' hf)]
      | _ => rfl
    simp [loadPatch, getPatch, Storage.fresh, openPatch, hn, h2, ho, ha]

/-- C36: asking whether there is a patch looks at the names only: it is there if the file of the latest level or else the flat file
exists, and not there if neither exists. -/
theorem C36_have (fs : Fs) (b : List Byte) :
    (((∃ c, fs.latest b = .file c) ∧ (∃ l, fs.level b = some l) ∨ (∀ c, fs.latest b ≠ .file c) ∧ ∃ c, fs.flat b = .file c) ↔
      ∃ x, (havePatch fs b Storage.fresh).1 = .found x) ∧
    ((∀ c, fs.latest b ≠ .file c) ∧ fs.flat b = .absent ↔ (havePatch fs b Storage.fresh).1 = .notFound) ∧
    ∀ f, (havePatch fs b (.single f)).1 = if (hdrBuildid f).take 40 = b then .found (some f) else .notFound := by
  refine ⟨?_, ?_, fun f => ?_⟩
  · cases h1 : fs.latest b <;> cases h2 : fs.level b <;> cases h3 : fs.flat b <;>
      simp [havePatch, getPatch, Storage.fresh, statPatch, h1, h2, h3]
  · cases h1 : fs.latest b <;> cases h2 : fs.level b <;> cases h3 : fs.flat b <;>
      simp [havePatch, getPatch, Storage.fresh, statPatch, h1, h2, h3]
  · by_cases h : singleBuildid f = b
    · have h' : (hdrBuildid f).take 40 = b := h
      simp [havePatch, getPatch, h, h']
    · have h' : ¬ (hdrBuildid f).take 40 = b := h
      simp [havePatch, getPatch, h, h']

/-- C36, same answer every time: while the file system does not change, every load of a build id in any history
gives the same answer. -/
theorem C36_same_answer_partial (fs : Fs) (bs : List (List Byte)) (i j : Nat) (b : List Byte)
    (hi : bs[i]? = some b) (hj : bs[j]? = some b) :
    let answers := (loads Storage.fresh (bs.map fun b => (fs, b))).1
    answers.length = bs.length ∧ answers[i]? = answers[j]? := by
  have key : ∀ (bs : List (List Byte)) (s : Storage),
      (∃ cache o, s = .dir cache o ∧ ∀ b p, cache.lookup b = some p → (openPatch fs b).1 = some p) →
      (loads s (bs.map fun b => (fs, b))).1 = bs.map (fsAnswer fs) := by
    intro bs
    induction bs with
    | nil => intro s _; rfl
    | cons b bs ih =>
      rintro s ⟨cache, o, rfl, h⟩
      simp only [List.map_cons, loads]
      have hstep : (loadPatch fs b (.dir cache o)).1 = fsAnswer fs b ∧
          ∃ cache' o', (loadPatch fs b (.dir cache o)).2 = .dir cache' o' ∧
            ∀ b p, cache'.lookup b = some p → (openPatch fs b).1 = some p := by
        unfold fsAnswer
        cases hl : cache.lookup b with
        | some p =>
          have := h b p hl
          rw [loadPatch_hit hl, this, if_pos (openPatch_some this).1]
          exact ⟨rfl, cache, o, rfl, h⟩
        | none =>
          cases hp : (openPatch fs b).1 with
          | none => rw [loadPatch_fail hl hp]; exact ⟨rfl, cache, _, rfl, h⟩
          | some p =>
            rw [loadPatch_new hl hp]
            refine ⟨rfl, _, _, rfl, fun b' p' h' => ?_⟩
            by_cases hb : b' = b
            · subst hb
              simp only [List.lookup_cons_self, Option.some.injEq] at h'
              subst h'
              exact hp
            · rw [lookup_cons_ne hb] at h'
              exact h b' p' h'
      rw [hstep.1, ih _ hstep.2]
  have := key bs Storage.fresh ⟨[], _, rfl, by simp⟩
  intro answers
  have ha : answers = bs.map (fsAnswer fs) := this
  rw [ha]
  simp [hi, hj]

/-! ### Concrete storages and violations -/

namespace ExStorage

/-- A patch with build id "ab". -/
def good : List Byte := (makeFile (fun b => some b.length) (fun b => some b.length) [0x61, 0x62] [0x31] 5 exPayload).1
/-- A file that is no patch. -/
def bad : List Byte := List.replicate 600 0

/-- `ab.kpatch` is a patch, `cd.kpatch` is not, `ef.kpatch` is the patch of build id "ab". -/
def fs : Fs where
  latest _ := .absent
  flat b := if b = [0x61, 0x62] then .file good else if b = [0x63, 0x64] then .file bad
    else if b = [0x65, 0x66] then .file good else .absent
  level _ := none

example : (loadPatch fs [0x61, 0x62] Storage.fresh).1 = .found (some good) := by decide +kernel

example : (loads Storage.fresh [(fs, [0x61, 0x62]), (fs, [0x63, 0x64]), (fs, [0x61, 0x62])]).1 =
    [.found (some good), .openError, .found (some good)] := by decide +kernel

/-- The hypotheses of `C36_stored_is_returned` are met. -/
example : acceptFile good = true ∧ fs.flat [0x61, 0x62] = .file good ∧ ∀ c', fs.latest [0x61, 0x62] = .file c' → c'.length < 504 :=
  ⟨by decide +kernel, by decide +kernel, fun c' h => by cases h⟩

/-- Only the first of three loads opens the file. -/
example : (loads Storage.fresh [(fs, [0x61, 0x62]), (fs, [0x61, 0x62]), (fs, [0x61, 0x62])]).2.opens [0x61, 0x62] = 1 := by
  decide +kernel

end ExStorage

open ExStorage in
/-- Code bug: the "negative caching" the header file announces does not work for loads: a file that is not a valid
patch is opened again by every query. -/
theorem C36_violated_reopens :
    (loads Storage.fresh [(fs, [0x63, 0x64])]).2.opens [0x63, 0x64] = 1 ∧
    (loads Storage.fresh [(fs, [0x63, 0x64]), (fs, [0x63, 0x64])]).2.opens [0x63, 0x64] = 2 := by
  decide +kernel

open ExStorage in
/-- Code bug: a storage directory returns whatever patch is in the file named after the build id, here one whose header
says it is for build id "ab" when asked for "ef". -/
theorem C36_violated_other_build_id :
    ∃ c, (loadPatch fs [0x65, 0x66] Storage.fresh).1 = .found (some c) ∧ hdrBuildid c ≠ [0x65, 0x66] :=
  ⟨good, by decide +kernel, by decide +kernel⟩

open ExStorage in
/-- Code bug: after `storage_have_patch` for a build id, loading it reports a patch but delivers a null pointer, even for
a file that is not a patch at all; without the first query the answers are the patch and an error. -/
theorem C36_violated_have_then_load :
    (loadPatch fs [0x61, 0x62] (havePatch fs [0x61, 0x62] Storage.fresh).2).1 = .found none ∧
    (loadPatch fs [0x61, 0x62] Storage.fresh).1 = .found (some good) ∧
    (loadPatch fs [0x63, 0x64] (havePatch fs [0x63, 0x64] Storage.fresh).2).1 = .found none ∧
    (loadPatch fs [0x63, 0x64] Storage.fresh).1 = .openError := by
  decide +kernel

end Verif
