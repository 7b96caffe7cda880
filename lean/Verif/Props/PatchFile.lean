import Verif.Model.PatchFile
import Verif.Spec.PatchFile
import Verif.Proof.Bytes
/-
C33, C34, C35: patch files.
-/
namespace Verif

theorem getField_numAt {file : List Byte} {off n : Nat} (h : off + n ≤ file.length) :
    getField file off n = some (numAt file off n) := by
  simp [getField, numAt, h]

theorem getField_total {file : List Byte} (h : 504 ≤ file.length) :
    getField file offTotalSize 4 = some (numAt file 160 4) := getField_numAt (by simp [offTotalSize]; omega)

theorem getField_offset {file : List Byte} (h : 504 ≤ file.length) :
    getField file offKpatchOffset 4 = some (numAt file 152 4) := getField_numAt (by simp [offKpatchOffset]; omega)

/-! ### C33 -/

/-- C33, the part that holds: an accepted file has room for the header, for the declared total size and for the
ELF header, which is one of a relocatable object.  Missing: the total size covers the header, the image part
inside the file, the section table inside the file (see the violations below). -/
theorem C33_accepted_fits_partial (file : List Byte) (h : acceptFile file = true) :
    504 ≤ file.length ∧ numAt file 160 4 ≤ file.length ∧ numAt file 152 4 + 64 ≤ file.length ∧
    file.take 8 = kpatchMagic ∧ IsElfRel (file.drop (numAt file 152 4)) := by
  unfold acceptFile at h
  have hs : hdrSize = 504 := rfl
  split at h
  · simp at h
  rename_i h1
  rw [getField_total (by omega), getField_offset (by omega)] at h
  dsimp only [Option.getD_some] at h
  split at h
  · simp at h
  rename_i h2
  split at h
  · simp at h
  rename_i h3
  split at h
  · simp at h
  rename_i h4
  rw [getField_numAt (by omega), getField_numAt (by omega)] at h
  split at h
  · simp at h
  rename_i h5
  split at h
  · simp at h
  rename_i h6
  split at h
  · simp at h
  rename_i h7
  refine ⟨by omega, by omega, by omega, by simpa using h2, ?_⟩
  refine ⟨by simp; omega, by simpa [elfMagic] using h5, ?_, ?_⟩
  · simpa [numAt, List.drop_drop] using h6
  · simpa [numAt, List.drop_drop] using h7

/-- A header of 504 zero bytes with magic, `kpatch_offset` and `total_size`, followed by an ELF header with
the given section table offset and count. -/
def exFile (kpOff total shoff shnum : Nat) : List Byte :=
  kpatchMagic ++ List.replicate 144 0 ++ leBytes 4 kpOff ++ leBytes 4 504 ++ leBytes 4 total ++ List.replicate 340 0 ++
    List.replicate (kpOff - 504) 0 ++
    elfMagic ++ List.replicate 12 0 ++ leBytes 2 1 ++ List.replicate 22 0 ++ leBytes 8 shoff ++ List.replicate 10 0 ++
    leBytes 2 64 ++ leBytes 2 shnum ++ leBytes 2 0

example : acceptFile (exFile 504 568 64 0) = true := by decide +kernel

/-- Code bug: the section table is not checked.  This accepted file of 568 bytes declares three sections at
offset 4096 of the image. -/
theorem C33_violated_section_table :
    ∃ file, acceptFile file = true ∧ ¬ FileFits file ∧
      file.length < numAt file (numAt file 152 4 + 40) 8 ∧ 0 < numAt file (numAt file 152 4 + 60) 2 :=
  ⟨exFile 504 568 4096 3, by decide +kernel, fun h => absurd h.sections (by decide +kernel), by decide +kernel,
    by decide +kernel⟩

/-- **C33**, the amount copied to the target, for a file whose declared sizes fit: the total size without the header, which
with the image's offset lies within the file. -/
theorem C33_copied_partial (file : List Byte) (h : acceptFile file = true) (hf : FileFits file) :
    imageCopyLen file = numAt file 160 4 - 504 ∧ numAt file 152 4 + imageCopyLen file ≤ file.length := by
  have h1 := (C33_accepted_fits_partial file h).1
  have h2 := hf.total_header
  have h3 := hf.image
  have h4 : numAt file 160 4 < 2 ^ 32 := by
    unfold numAt
    have := leVal_lt ((file.drop 160).take 4)
    have hl : ((file.drop 160).take 4).length = 4 := by simp; omega
    rw [hl] at this
    omega
  have h5 : imageCopyLen file = numAt file 160 4 - 504 := by
    unfold imageCopyLen sub64
    rw [getField_total h1]
    simp only [Option.getD_some, hdrSize]
    omega
  exact ⟨h5, by omega⟩

/-- The file of the example fits. -/
example : acceptFile (exFile 504 568 64 0) = true ∧ FileFits (exFile 504 568 64 0) :=
  ⟨by decide +kernel, ⟨by decide +kernel, by decide +kernel, by decide +kernel, by decide +kernel, by decide +kernel, by decide +kernel⟩⟩

/-- Code bug: a total size smaller than the header is accepted; the amount to copy to the target, total size
minus header size, then wraps to nearly 2^64. -/
theorem C33_violated_total_size :
    ∃ file, acceptFile file = true ∧ ¬ FileFits file ∧ numAt file 160 4 < 504 ∧
      imageCopyLen file + 504 = 2 ^ 64 + numAt file 160 4 ∧ file.length < imageCopyLen file :=
  ⟨exFile 504 0 64 0, by decide +kernel, fun h => absurd h.total_header (by decide +kernel), by decide +kernel,
    by decide +kernel, by decide +kernel⟩

/-- Code bug: the image part starting at the declared offset may run past the end of the file although the total
size is right. -/
theorem C33_violated_image :
    ∃ file, acceptFile file = true ∧ ¬ FileFits file ∧ numAt file 160 4 = file.length ∧
      imageCopyLen file + 504 = numAt file 160 4 ∧ file.length < numAt file 152 4 + imageCopyLen file :=
  ⟨exFile 1016 1080 64 0, by decide +kernel, fun h => absurd h.image (by decide +kernel), by decide +kernel,
    by decide +kernel, by decide +kernel⟩

/-! ### C34 -/

theorem strField_length (w : Nat) (s : List Byte) (hw : 0 < w) : (strField w s).length = w := by
  simp [strField]
  omega

theorem cstr_append_zero (s t : List Byte) (h : 0#8 ∉ s) : cstr (s ++ 0#8 :: t) = s := by
  unfold cstr
  rw [List.takeWhile_append_of_pos]
  · simp
  · intro b hb
    simp only [bne_iff_ne, ne_eq]
    rintro rfl
    exact h hb

theorem cstr_strField (w : Nat) (s : List Byte) (hw : 0 < w) (h : 0#8 ∉ s) :
    cstr (strField w s) = s.take (w - 1) := by
  unfold strField
  obtain ⟨k, hk⟩ : ∃ k, w - (s.take (w - 1)).length = k + 1 := ⟨w - (s.take (w - 1)).length - 1, by simp; omega⟩
  rw [hk, List.replicate_succ]
  exact cstr_append_zero _ _ (fun h' => h (List.mem_of_mem_take h'))

theorem makeHeader_length (buildid id : List Byte) (time size : Nat) :
    (makeHeader buildid id time size).length = 504 := by
  simp only [makeHeader, List.length_append, List.length_replicate, leBytes_length, strField_length 8 _ (by omega),
    strField_length 41 _ (by omega)]
  rfl

/-- Cut a part out of a concatenation. -/
theorem take_drop_append3 (a b c : List Byte) (off n : Nat) (ha : a.length = off) (hb : b.length = n) :
    ((a ++ b ++ c).drop off).take n = b := by
  subst ha; subst hb
  rw [List.append_assoc, List.drop_left, List.take_left]

theorem makeHeader_fields (buildid id : List Byte) (time size : Nat) (rest : List Byte) :
    let f := makeHeader buildid id time size ++ rest
    f.take 8 = kpatchMagic ∧ (f.drop 8).take 8 = strField 8 id ∧ (f.drop 88).take 41 = strField 41 buildid ∧
    (f.drop 152).take 4 = leBytes 4 504 ∧ (f.drop 160).take 4 = leBytes 4 (504 + size) ∧ f.drop 504 = rest := by
  intro f
  have l8 := strField_length 8 id (by omega)
  have l41 := strField_length 41 buildid (by omega)
  have hm : kpatchMagic.length = 8 := rfl
  refine ⟨?_, ?_, ?_, ?_, ?_, ?_⟩
  · simp only [f, makeHeader, List.append_assoc]
    rw [List.take_append_of_le_length (by simp [hm])]
    rfl
  · have := take_drop_append3 kpatchMagic (strField 8 id)
      (List.replicate 8 0 ++ List.replicate 64 0 ++ strField 41 buildid ++ List.replicate 7 0 ++ leBytes 8 time ++
        leBytes 4 0 ++ leBytes 4 0 ++ leBytes 4 hdrSize ++ leBytes 4 hdrSize ++ leBytes 4 (hdrSize + size) ++
        List.replicate 340 0 ++ rest) 8 8 hm l8
    simpa only [f, makeHeader, List.append_assoc] using this
  · have := take_drop_append3 (kpatchMagic ++ strField 8 id ++ List.replicate 8 0 ++ List.replicate 64 0)
      (strField 41 buildid)
      (List.replicate 7 0 ++ leBytes 8 time ++ leBytes 4 0 ++ leBytes 4 0 ++ leBytes 4 hdrSize ++ leBytes 4 hdrSize ++
        leBytes 4 (hdrSize + size) ++ List.replicate 340 0 ++ rest) 88 41 (by simp [hm, l8]) l41
    simpa only [f, makeHeader, List.append_assoc] using this
  · have := take_drop_append3 (kpatchMagic ++ strField 8 id ++ List.replicate 8 0 ++ List.replicate 64 0 ++
        strField 41 buildid ++ List.replicate 7 0 ++ leBytes 8 time ++ leBytes 4 0 ++ leBytes 4 0)
      (leBytes 4 hdrSize)
      (leBytes 4 hdrSize ++ leBytes 4 (hdrSize + size) ++ List.replicate 340 0 ++ rest) 152 4
      (by simp [hm, l8, l41, leBytes_length]) (leBytes_length _ _)
    simpa only [f, makeHeader, List.append_assoc, hdrSize] using this
  · have := take_drop_append3 (kpatchMagic ++ strField 8 id ++ List.replicate 8 0 ++ List.replicate 64 0 ++
        strField 41 buildid ++ List.replicate 7 0 ++ leBytes 8 time ++ leBytes 4 0 ++ leBytes 4 0 ++
        leBytes 4 hdrSize ++ leBytes 4 hdrSize)
      (leBytes 4 (hdrSize + size)) (List.replicate 340 0 ++ rest) 160 4
      (by simp [hm, l8, l41, leBytes_length]) (leBytes_length _ _)
    simpa only [f, makeHeader, List.append_assoc, hdrSize] using this
  · have := makeHeader_length buildid id time size
    simp [f, List.drop_append, this]

/-- When `make_file` reports success both parts were written completely. -/
theorem makeFile_ok {w1 w2 : WriteOracle} {buildid id : List Byte} {time : Nat} {payload : List Byte}
    (h : (makeFile w1 w2 buildid id time payload).2 = true) :
    (makeFile w1 w2 buildid id time payload).1 =
      makeHeader buildid id time (roundUp payload.length 16) ++
        (payload ++ List.replicate (roundUp payload.length 16 - payload.length) 0) := by
  have hl := makeHeader_length buildid id time (roundUp payload.length 16)
  have hr := le_roundUp payload.length 16 (by omega)
  unfold makeFile at h ⊢
  dsimp only at h ⊢
  rw [decide_eq_true_eq] at h
  generalize makeHeader buildid id time (roundUp payload.length 16) = hdr at *
  generalize hb : payload ++ List.replicate (roundUp payload.length 16 - payload.length) 0 = body at *
  have hbl : body.length = roundUp payload.length 16 := by rw [← hb]; simp; omega
  rw [← hbl] at h
  simp only [wroteRet, hdrSize] at h
  cases e1 : w1 hdr with
  | none =>
    rw [e1] at h
    cases e2 : w2 body <;> rw [e2] at h <;> dsimp only at h <;> omega
  | some n1 =>
    rw [e1] at h
    cases e2 : w2 body with
    | none => rw [e2] at h; dsimp only at h; omega
    | some n2 =>
      rw [e2] at h
      dsimp only at h
      simp only [wrote, e1, e2, Option.getD_some]
      rw [List.take_of_length_le (by omega), List.take_of_length_le (by omega)]

/-- C34.  For every relocatable payload and every build id and patch id that fit their fields, however the kernel
splits or fails the writes: when the tool reports success, the file
* is accepted by the loader,
* carries the build id and the patch id,
* when its header is removed again gives the payload, padded with zeros to a multiple of 16 bytes. -/
theorem C34_payload_preserved (w1 w2 : WriteOracle) (buildid id : List Byte) (time : Nat) (payload : List Byte)
    (hb : buildid.length ≤ 40) (hb0 : 0#8 ∉ buildid) (hi : id.length ≤ 7) (hi0 : 0#8 ∉ id)
    (he : IsElfRel payload) (hsz : payload.length < 2 ^ 31)
    (hok : (makeFile w1 w2 buildid id time payload).2 = true) :
    let file := (makeFile w1 w2 buildid id time payload).1
    acceptFile file = true ∧ hdrBuildid file = buildid ∧ hdrId file = id ∧
    ∃ pad, pad < 16 ∧ (payload.length + pad) % 16 = 0 ∧ dumpElf file = some (payload ++ List.replicate pad 0) := by
  intro file
  have hfile : file = _ := makeFile_ok hok
  clear_value file
  have hr := le_roundUp payload.length 16 (by omega)
  have hr2 := roundUp_lt payload.length 16 (by omega)
  have hr3 := roundUp_mod payload.length 16
  generalize hsize : roundUp payload.length 16 = size at *
  obtain ⟨f1, f2, f3, f4, f5, f6⟩ := makeHeader_fields buildid id time size (payload ++ List.replicate (size - payload.length) 0)
  rw [← hfile] at f1 f2 f3 f4 f5 f6
  have hl : file.length = 504 + size := by
    rw [hfile, List.length_append, makeHeader_length]
    simp
    omega
  have hp := he.size
  have n1 : numAt file 160 4 = 504 + size := by
    rw [numAt, f5, leVal_leBytes]
    omega
  have n2 : numAt file 152 4 = 504 := by
    rw [numAt, f4, leVal_leBytes]
  have hin : ∀ off n, off + n ≤ 64 → numAt file (504 + off) n = numAt payload off n := by
    intro off n h
    unfold numAt
    rw [← List.drop_drop, f6, List.drop_append_of_le_length (by omega), List.take_append_of_le_length (by simp; omega)]
  refine ⟨?_, ?_, ?_, size - payload.length, by omega, ?_, ?_⟩
  · unfold acceptFile
    have hs : hdrSize = 504 := rfl
    rw [if_neg (by omega), if_neg (by simp [f1]), getField_total (by omega), getField_offset (by omega), n1, n2]
    dsimp only [Option.getD_some]
    rw [if_neg (by omega), if_neg (by omega), getField_numAt (by omega), getField_numAt (by omega), if_neg, if_neg, if_neg]
    · rw [hin 58 2 (by omega), he.shentsize]
      simp
    · rw [hin 16 2 (by omega), he.type]
      simp
    · rw [f6, List.take_append_of_le_length (by omega), he.magic]
      simp [elfMagic]
  · rw [hdrBuildid, f3, cstr_strField 41 _ (by omega) hb0]
    exact List.take_of_length_le (by omega)
  · rw [hdrId, kpId, f2, cstr_strField 8 _ (by omega) hi0]
    exact List.take_of_length_le (by omega)
  · rw [Nat.add_sub_cancel' hr]
    exact hr3
  · unfold dumpElf
    have hs : hdrSize = 504 := rfl
    rw [if_neg (by omega), hs, f6, if_neg]
    rw [List.take_append_of_le_length (by omega), he.magic]
    simp [elfMagic]

/-- a small payload -/
def exPayload : List Byte := (exFile 504 568 64 0).drop 504 ++ [1, 2, 3]

example : IsElfRel exPayload := ⟨by decide +kernel, by decide +kernel, by decide +kernel, by decide +kernel⟩

example :
    let r := makeFile (fun b => some b.length) (fun b => some b.length) [0x61, 0x62] [0x30, 0x31] 5 exPayload
    r.2 = true ∧ r.1.length = 504 + 80 := by
  decide +kernel

/-- an interrupted write is reported -/
example : (makeFile (fun b => some b.length) (fun _ => some 12) [0x61] [0x30] 5 exPayload).2 = false := by
  decide +kernel

/-! ### C35 -/

theorem hdrId_take (f : List Byte) : hdrId (f.take 136) = hdrId f := by
  unfold hdrId kpId
  rw [List.drop_take, List.take_take]
  rfl

theorem hdrBuildid_take (f : List Byte) : hdrBuildid (f.take 136) = hdrBuildid f := by
  unfold hdrBuildid
  rw [List.drop_take, List.take_take]
  rfl

theorem setField_take (bs : List Byte) (off n v k : Nat) (hk : k ≤ off) (h : off ≤ bs.length) :
    (setField bs off n v).take k = bs.take k := by
  unfold setField
  rw [List.append_assoc, List.take_append_of_le_length (by simp; omega), List.take_take, Nat.min_eq_left hk]

theorem setField_keeps {bs x : List Byte} (off n v : Nat) (hk : 136 ≤ off) (hn : off + n ≤ 504)
    (h : bs.length = 504 ∧ bs.take 136 = x) :
    (setField bs off n v).length = 504 ∧ (setField bs off n v).take 136 = x :=
  ⟨by rw [setField_length _ _ _ _ (by omega)]; exact h.1, by rw [setField_take _ _ _ _ _ hk (by omega)]; exact h.2⟩

/-- Installing a patch leaves the id and build id fields of the header alone. -/
theorem storeLayout_take (hdr : List Byte) (l : Layout) (h : hdr.length = 504) :
    (storeLayout hdr l).take 136 = hdr.take 136 := by
  unfold storeLayout
  refine (setField_keeps _ _ _ (by decide) (by decide) (setField_keeps _ _ _ (by decide) (by decide)
    (setField_keeps _ _ _ (by decide) (by decide) (setField_keeps _ _ _ (by decide) (by decide) ?_)))).2
  unfold storeJmpOffset
  split
  · exact setField_keeps _ _ _ (by decide) (by decide) ⟨h, rfl⟩
  · exact ⟨h, rfl⟩

/-- what a patch made with `id` is called when loaded -/
theorem made_id {w1 w2 : WriteOracle} {buildid id : List Byte} {time : Nat} {payload : List Byte} (hi0 : 0#8 ∉ id)
    (hok : (makeFile w1 w2 buildid id time payload).2 = true) :
    hdrId (makeFile w1 w2 buildid id time payload).1 = id.take 7 := by
  rw [makeFile_ok hok]
  have := (makeHeader_fields buildid id time (roundUp payload.length 16)
    (payload ++ List.replicate (roundUp payload.length 16 - payload.length) 0)).2.1
  rw [hdrId, kpId, this, cstr_strField 8 _ (by omega) hi0]

theorem associateOne_keeps {bid : Obj → Option (List Byte)} {id : List Byte} {kpta : Nat} {hdr : List Byte} :
    ∀ {ps : List PObj}, (∃ p ∈ ps, ∃ k h, p.target = some (k, h) ∧ hdrId h = id ∧ bid p.obj = some (hdrBuildid h)) →
      ∃ p ∈ associateOne bid (some id) kpta hdr ps,
        ∃ k h, p.target = some (k, h) ∧ hdrId h = id ∧ bid p.obj = some (hdrBuildid h) := by
  intro ps
  induction ps with
  | nil => rintro ⟨p, hp, -⟩; simp at hp
  | cons q ps ih =>
    rintro ⟨p, hp, k, h, h1, h2, h3⟩
    unfold associateOne
    split
    · rename_i hb
      rcases List.mem_cons.mp hp with rfl | hp
      · refine ⟨_, List.mem_cons_self .., ?_⟩
        by_cases hid : id = hdrId hdr
        · exact ⟨kpta, hdr, by simp [hid], hid.symm, hb⟩
        · exact ⟨k, h, by simp [hid, h1], h2, h3⟩
      · exact ⟨p, List.mem_cons_of_mem _ hp, k, h, h1, h2, h3⟩
    · rcases List.mem_cons.mp hp with rfl | hp
      · exact ⟨p, List.mem_cons_self .., k, h, h1, h2, h3⟩
      · obtain ⟨p', hp', r⟩ := ih ⟨p, hp, k, h, h1, h2, h3⟩
        exact ⟨p', List.mem_cons_of_mem _ hp', r⟩

theorem associateOne_objs {bid : Obj → Option (List Byte)} {pid : Option (List Byte)} {kpta : Nat} {hdr : List Byte} :
    ∀ {ps : List PObj}, (associateOne bid pid kpta hdr ps).map (·.obj) = ps.map (·.obj) := by
  intro ps
  induction ps with
  | nil => rfl
  | cons q ps ih =>
    unfold associateOne
    split
    · simp
    · simp [ih]

theorem associateOne_sets {bid : Obj → Option (List Byte)} {id : List Byte} {kpta : Nat} {hdr : List Byte}
    (hid : hdrId hdr = id) : ∀ {ps : List PObj}, (∃ o ∈ ps.map (·.obj), bid o = some (hdrBuildid hdr)) →
      ∃ p ∈ associateOne bid (some id) kpta hdr ps,
        ∃ k h, p.target = some (k, h) ∧ hdrId h = id ∧ bid p.obj = some (hdrBuildid h) := by
  intro ps
  induction ps with
  | nil => rintro ⟨p, hp, -⟩; simp at hp
  | cons q ps ih =>
    rintro ⟨o, ho, hb⟩
    unfold associateOne
    split
    · rename_i hb'
      exact ⟨_, List.mem_cons_self .., kpta, hdr, by simp [hid], hid, hb'⟩
    · rename_i hb'
      simp only [List.map_cons, List.mem_cons] at ho
      rcases ho with rfl | ho
      · exact absurd hb hb'
      · obtain ⟨p', hp', r⟩ := ih ⟨o, ho, hb⟩
        exact ⟨p', List.mem_cons_of_mem _ hp', r⟩

/-- The unpatch command finds the patch with the given id. -/
theorem associate_finds {bid : Obj → Option (List Byte)} {id : List Byte} {objs : List Obj} {p o : Obj}
    (hp : p ∈ objs) (hpp : p.isPatch = true) (hid : hdrId p.hdr = id) (ho : o ∈ objs)
    (hb : bid o = some (hdrBuildid p.hdr)) :
    ∃ q ∈ associate bid (some id) objs, ∃ k h, q.target = some (k, h) ∧ hdrId h = id ∧
      bid q.obj = some (hdrBuildid h) := by
  unfold associate
  have hp' : p ∈ objs.filter (·.isPatch) := by simp [hp, hpp]
  have hobj : o ∈ (objs.map fun o => (⟨o, [], none⟩ : PObj)).map (·.obj) := by simp [ho]
  generalize objs.map (fun o => (⟨o, [], none⟩ : PObj)) = ps at *
  generalize objs.filter (·.isPatch) = l at *
  have keep : ∀ (l : List Obj) (ps : List PObj),
      (∃ p ∈ ps, ∃ k h, p.target = some (k, h) ∧ hdrId h = id ∧ bid p.obj = some (hdrBuildid h)) →
      ∃ p ∈ l.foldl (fun ps o => associateOne bid (some id) ((o.vmas.map (·.start)).headD 0) o.hdr ps) ps,
        ∃ k h, p.target = some (k, h) ∧ hdrId h = id ∧ bid p.obj = some (hdrBuildid h) := by
    intro l
    induction l with
    | nil => intro ps h; exact h
    | cons x l ih => intro ps h; exact ih _ (associateOne_keeps h)
  induction l generalizing ps with
  | nil => simp at hp'
  | cons x l ih =>
    rw [List.foldl_cons]
    rcases List.mem_cons.mp hp' with rfl | hp''
    · exact keep l _ (associateOne_sets hid ⟨o, hobj, hb⟩)
    · exact ih _ (by rw [associateOne_objs]; exact hobj) hp''

/-- C35, the part that holds: ids of at most 7 bytes.  Different ids are different when loaded, and an unpatch
command with the id finds a patch with this id, whatever else is in the process.  (`p` is an applied patch whose header
agrees with the file up to and including the build id; `storeLayout_take` is why it does after installation.) -/
theorem C35_short_ids_partial (id : List Byte) (hi0 : 0#8 ∉ id) (hi : id.length ≤ 7) (w1 w2 : WriteOracle)
    (buildid : List Byte) (time : Nat) (payload : List Byte)
    (hok : (makeFile w1 w2 buildid id time payload).2 = true) :
    let file := (makeFile w1 w2 buildid id time payload).1
    hdrId file = id ∧
    (∀ (id' : List Byte) (w1' w2' : WriteOracle) (buildid' : List Byte) (time' : Nat) (payload' : List Byte),
      0#8 ∉ id' → (makeFile w1' w2' buildid' id' time' payload').2 = true → id'.length ≤ 7 → id' ≠ id →
      hdrId (makeFile w1' w2' buildid' id' time' payload').1 ≠ hdrId file) ∧
    (∀ (bid : Obj → Option (List Byte)) (objs : List Obj) (p o : Obj), p ∈ objs → p.isPatch = true →
      p.hdr.take 136 = file.take 136 → o ∈ objs → bid o = some (hdrBuildid file) →
      ∃ q ∈ associate bid (some id) objs, ∃ k h, q.target = some (k, h) ∧ hdrId h = id ∧
        bid q.obj = some (hdrBuildid h)) := by
  intro file
  have hid : hdrId file = id := by
    rw [made_id hi0 hok, List.take_of_length_le hi]
  refine ⟨hid, ?_, ?_⟩
  · intro id' w1' w2' b' t' p' h0 hok' hl hne
    rw [made_id h0 hok', List.take_of_length_le hl, hid]
    exact hne
  · intro bid objs p o hp hpp hh ho hb
    have e1 : hdrId p.hdr = id := by rw [← hdrId_take, hh, hdrId_take, hid]
    have e2 : hdrBuildid p.hdr = hdrBuildid file := by rw [← hdrBuildid_take, hh, hdrBuildid_take]
    exact associate_finds hp hpp e1 ho (by rw [e2]; exact hb)

/-- Code bug: `kpatch_make` keeps 7 bytes of the id without a diagnostic.  For every id of 8 bytes or more the loaded
patch has another id, so that no unpatch command with the id the patch was made with finds it, and every longer id with
the same first 7 bytes makes a patch of the same id. -/
theorem C35_violated_long_ids (id id' : List Byte) (hi0 : 0#8 ∉ id) (hi0' : 0#8 ∉ id') (hi : 8 ≤ id.length)
    (hpre : id'.take 7 = id.take 7) (w1 w2 w1' w2' : WriteOracle) (buildid buildid' : List Byte) (time time' : Nat)
    (payload payload' : List Byte)
    (hok : (makeFile w1 w2 buildid id time payload).2 = true)
    (hok' : (makeFile w1' w2' buildid' id' time' payload').2 = true) :
    hdrId (makeFile w1 w2 buildid id time payload).1 ≠ id ∧
    hdrId (makeFile w1' w2' buildid' id' time' payload').1 = hdrId (makeFile w1 w2 buildid id time payload).1 := by
  rw [made_id hi0 hok, made_id hi0' hok', hpre]
  refine ⟨fun h => ?_, rfl⟩
  have := congrArg List.length h
  simp at this
  omega

/-- "update-1" and "update-2" -/
example :
    let a : List Byte := [0x75, 0x70, 0x64, 0x61, 0x74, 0x65, 0x2d, 0x31]
    let b : List Byte := [0x75, 0x70, 0x64, 0x61, 0x74, 0x65, 0x2d, 0x32]
    let w : WriteOracle := fun b => some b.length
    a ≠ b ∧ (makeFile w w [0x61] a 5 exPayload).2 = true ∧
    hdrId (makeFile w w [0x61] a 5 exPayload).1 = hdrId (makeFile w w [0x61] b 5 exPayload).1 := by
  decide +kernel

end Verif
