import Verif.Proof.Patch
/-
The state of the target after a successful apply, and removal of the patch from such a state.
-/
namespace Verif

theorem leVal_field {hdr : List Byte} {off n v : Nat} (h : getField hdr off n = some v) :
    leVal ((hdr.drop off).take n) = v := by
  unfold getField at h
  split at h
  · simpa using h
  · simp at h

/-- The header written to the target carries the layout. -/
theorem storeLayout_spec (hdr : List Byte) (l : Layout) (h : hdr.length = 504) :
    (storeLayout hdr l).length = 504 ∧
    getField (storeLayout hdr l) offElfOffset 4 = some (l.elfOffset % 256 ^ 4) ∧
    getField (storeLayout hdr l) offUserInfo 4 = some (l.userInfo % 256 ^ 4) ∧
    getField (storeLayout hdr l) offUserUndo 4 = some (l.userUndo % 256 ^ 4) ∧
    getField (storeLayout hdr l) offTotalMem 8 = some (l.totalMem % 256 ^ 8) ∧
    (∀ off n, off + n ≤ 164 → getField (storeLayout hdr l) off n = getField hdr off n) := by
  unfold storeLayout
  simp only
  generalize hh1 : storeJmpOffset hdr l.jmpOffset = h1
  have hl1 : h1.length = 504 := by
    rw [← hh1]; unfold storeJmpOffset; split
    · rw [setField_length _ _ _ _ (by simp only [offJmpOffset]; omega), h]
    · exact h
  have g1 : ∀ off n, off + n ≤ 164 → getField h1 off n = getField hdr off n := by
    intro off n hon
    rw [← hh1]; unfold storeJmpOffset; split
    · rw [getField_setField_ne _ _ _ _ _ _ (by simp only [offJmpOffset]; omega)
        (by simp only [offJmpOffset]; omega)]
    · rfl
  clear hh1
  simp only [offElfOffset, offUserInfo, offUserUndo, offTotalMem]
  have L2 := setField_length h1 168 4 l.elfOffset (by omega)
  have L3 := setField_length (setField h1 168 4 l.elfOffset) 188 4 l.userInfo (by omega)
  have L4 := setField_length (setField (setField h1 168 4 l.elfOffset) 188 4 l.userInfo) 184 4 l.userUndo (by omega)
  refine ⟨?_, ?_, ?_, ?_, ?_, ?_⟩
  · rw [setField_length _ _ _ _ (by omega)]; omega
  · rw [getField_setField_ne _ _ _ _ _ _ (by omega) (by omega),
      getField_setField_ne _ _ _ _ _ _ (by omega) (by omega),
      getField_setField_ne _ _ _ _ _ _ (by omega) (by omega), getField_setField _ _ _ _ (by omega)]
  · rw [getField_setField_ne _ _ _ _ _ _ (by omega) (by omega),
      getField_setField_ne _ _ _ _ _ _ (by omega) (by omega), getField_setField _ _ _ _ (by omega)]
  · rw [getField_setField_ne _ _ _ _ _ _ (by omega) (by omega), getField_setField _ _ _ _ (by omega)]
  · rw [getField_setField _ _ _ _ (by omega)]
  · intro off n hon
    rw [getField_setField_ne _ _ _ _ _ _ (by omega) (by omega),
      getField_setField_ne _ _ _ _ _ _ (by omega) (by omega),
      getField_setField_ne _ _ _ _ _ _ (by omega) (by omega),
      getField_setField_ne _ _ _ _ _ _ (by omega) (by omega), g1 off n hon]

theorem entriesDisjoint_of_funcs {a : Arch} {m : Mem} {is : List Info} (h : FunctionsOk a m is) :
    EntriesDisjoint a.hunkSize is := by
  have hp := h.disjoint
  have hl := h.long
  unfold EntriesDisjoint
  rw [List.pairwise_iff_getElem] at hp ⊢
  intro i j hi hj hij h1 h2
  have o1 := (isOld_iff _).mpr h1
  have o2 := (isOld_iff _).mpr h2
  have l1 := hl _ (List.getElem_mem hi) o1
  have l2 := hl _ (List.getElem_mem hj) o2
  have d := hp i j hi hj hij o1 o2
  intro x hx
  apply d x
  simp only [InRange] at *
  omega

theorem entriesAvoid_of_unmapped {a : Arch} {m : Mem} {is : List Info} (h : FunctionsOk a m is)
    {base len : Nat} (hu : Unmapped m base len) : EntriesAvoid a.hunkSize is base len := by
  intro i hi hn x hx
  have ho := (isOld_iff _).mpr hn
  have hl := h.long i hi ho
  have hm := h.mapped i hi ho (x - i.daddr) (by simp only [InRange] at *; omega)
  have hu' := hu (x - base) (by simp only [InRange] at *; omega)
  simp only [InRange] at hx
  rw [show i.daddr + (x - i.daddr) = x by omega] at hm
  rw [show base + (x - base) = x by omega] at hu'
  exact hm hu'

/-- Description of a target in which the patch is in place: relative to the memory `m0` before. -/
structure PatchInPlace (a : Arch) (m0 m : Mem) (kpta : Nat) (l : Layout) (hdr image : List Byte)
    (infos : List Info) : Prop where
  mapped : Mapped m kpta l.totalMem
  header : Holds m kpta hdr
  image : Holds m (kpta + l.elfOffset) image
  saved : ∀ k (h : k < infos.length), infos[k].isOld → ∀ j, j < a.hunkSize →
    m (kpta + l.userUndo + k * a.hunkSize + j) = m0 (infos[k].daddr + j)
  jumps : ∀ i ∈ infos, i.isOld → ∃ code,
    a.hunkCode (BitVec.ofNat 64 i.daddr) (BitVec.ofNat 64 i.saddr) = some code ∧ Holds m i.daddr code

/-- What is assumed about a run of `objectApply`: the patch is well formed, it fits, the region it is
given is free, and while the tool waits for the threads the target does not modify the functions
to be patched or the patch region. -/
structure ApplyAssumptions (a : Arch) (e : ApplyEnv) (file : List Byte) (m : Mem) (v : ElfView)
    (kpta : Nat) (image : List Byte) (l : Layout) : Prop where
  view : e.view = some v
  region : e.region = some kpta
  relocated : ∀ im, e.image = some im → im = image
  layout : l = layout a e.page v.undef (504 + image.length) v.infoOff v.ninfo
  fileLen : 504 ≤ file.length
  page : 48 ≤ e.page
  size : totalSizeOf (file.take hdrSize) = 504 + image.length
  mem32 : l.totalMem < 2 ^ 32
  table : TableOk image v.infoOff v.ninfo
  free : Unmapped m kpta l.totalMem
  funcs : FunctionsOk a m (parseInfos image v.infoOff v.ninfo)
  wait : ∀ m' x, InRange x kpta l.totalMem ∨
      (∃ i ∈ parseInfos image v.infoOff v.ninfo, i.isOld ∧ InRange x i.daddr i.dlen) →
    (e.safety m').1 x = m' x

theorem isOld_range_hunk {a : Arch} {m : Mem} {is : List Info} (h : FunctionsOk a m is) {x : Nat}
    (hx : IsEntryByte a is x) : ∃ i ∈ is, i.isOld ∧ InRange x i.daddr i.dlen := by
  obtain ⟨i, hi, ho, hr⟩ := hx
  refine ⟨i, hi, ho, ?_⟩
  have := h.long i hi ho
  simp only [InRange] at *; omega

theorem isEntry_iff {a : Arch} {is : List Info} {x : Nat} :
    (∀ i ∈ is, i.isNew = false → ¬ InRange x i.daddr a.hunkSize) ↔ ¬ IsEntryByte a is x := by
  simp only [IsEntryByte, isOld_iff]
  grind

theorem objectApply_in_place {a : Arch} {e : ApplyEnv} {ids : List (List Byte)} {file : List Byte} {m : Mem}
    {v : ElfView} {kpta : Nat} {image : List Byte} {l : Layout}
    (A : ApplyAssumptions a e file m v kpta image l)
    (h : (objectApply a e ids file m).2.2 = true) :
    PatchInPlace a m (objectApply a e ids file m).1 kpta l (storeLayout (file.take hdrSize) l) image
      (parseInfos image v.infoOff v.ninfo) ∧
    (objectApply a e ids file m).2.1.kpta = kpta ∧
    (∃ mw : Mem, (∀ x, ¬ InRange x kpta l.totalMem → mw x = m x) ∧
      ∀ x, ¬ InRange x kpta l.totalMem → ¬ IsEntryByte a (parseInfos image v.infoOff v.ninfo) x →
        (objectApply a e ids file m).1 x = (e.safety mw).1 x) := by
  obtain ⟨v', kpta', image', l', hv, hr, hi, -, hl', heq⟩ := objectApply_ok a e ids file m h
  rw [A.view] at hv; rw [A.region] at hr
  simp only [Option.some.injEq] at hv hr
  replace hi := A.relocated _ hi
  subst hv; subst hr; subst image'
  rw [A.size, ← A.layout] at hl'
  subst l'
  rw [heq] at h ⊢
  obtain ⟨h1, h2, h3, h4, h5⟩ := installPatch_ok h
  rw [h4, h5]
  have hpg : 0 < e.page := by have := A.page; omega
  have hin := layout_ineq a e.page v.undef image.length v.infoOff v.ninfo hpg
    (by rw [← A.layout]; exact A.mem32) (by have := A.table.fits; omega)
  rw [← A.layout] at hin
  obtain ⟨i1, i2, i3, i4, i5, i6, i7⟩ := hin
  have hts : image.length = totalSizeOf (file.take hdrSize) - hdrSize := by
    rw [A.size]; simp [hdrSize]
  have hhl : (file.take hdrSize).length = 504 := by
    have := A.fileLen; rw [List.length_take]; simp only [hdrSize]; omega
  obtain ⟨hsl, -⟩ := storeLayout_spec (file.take hdrSize) l hhl
  obtain ⟨w1, w2, w3, w4⟩ := writeParts_ok h1 hsl i1 hts
    (fun jo hjo => by
      rcases i7 with ⟨_, h⟩ | ⟨_, h, h'⟩
      · rw [h] at hjo; simp at hjo
      · rw [h] at hjo; simp at hjo; exact ⟨hjo.symm, h'⟩)
    (by omega)
  generalize hmw : (writeParts a e l v.undef (totalSizeOf (file.take hdrSize)) (storeLayout (file.take hdrSize) l)
    image kpta (mmapFixed m kpta l.totalMem)).1 = mw at *
  generalize hms : (e.safety mw).1 = ms at *
  have hlen : (parseInfos image v.infoOff v.ninfo).length = v.ninfo := parseInfos_length _ _ _
  have hav : EntriesAvoid a.hunkSize (parseInfos image v.infoOff v.ninfo) kpta l.totalMem :=
    entriesAvoid_of_unmapped A.funcs A.free
  have hcomm : v.ninfo * a.hunkSize = a.hunkSize * v.ninfo := Nat.mul_comm _ _
  have hsp := applyHunks_spec a e.hunk (kpta + l.userUndo) (parseInfos image v.infoOff v.ninfo) ms 0
    (entriesDisjoint_of_funcs A.funcs)
    (fun i hi hn => (hav i hi hn).sub (by omega) (by rw [hlen]; omega)) A.table.noFlag
  simp only [Nat.zero_mul, Nat.add_zero, Nat.zero_add] at hsp
  obtain ⟨s1, s2, s3, s4⟩ := hsp
  rw [hlen] at s2 s3
  generalize (applyHunks a e.hunk (kpta + l.userUndo) ms 0 (parseInfos image v.infoOff v.ninfo)) = R at *
  have hms_reg : ∀ x, InRange x kpta l.totalMem → ms x = mw x := fun x hx => by
    rw [← hms]; exact A.wait mw x (Or.inl hx)
  have hmm : ∀ x, ¬ InRange x kpta l.totalMem → mmapFixed m kpta l.totalMem x = m x := by
    intro x hx
    simp only [mmapFixed]
    rw [if_neg (by simpa [InRange] using hx)]
  have hreg_entry : ∀ x, InRange x kpta l.totalMem →
      ∀ i ∈ parseInfos image v.infoOff v.ninfo, i.isNew = false → ¬ InRange x i.daddr a.hunkSize := by
    intro x hx i hi hn hxi
    exact hav i hi hn x ⟨hxi, hx⟩
  have hRreg : ∀ x, InRange x kpta l.totalMem → ¬ InRange x (kpta + l.userUndo) (v.ninfo * a.hunkSize) →
      R.1 x = mw x := by
    intro x hx hu
    rw [s2 x (hreg_entry x hx) hu, hms_reg x hx]
  refine ⟨⟨?_, ?_, ?_, ?_, ?_⟩, rfl, mw, ?_, ?_⟩
  · intro k hk
    rw [ne_eq, s1, hms_reg _ (InRange.add hk), w2]
    simp only [mmapFixed]
    rw [if_pos (by omega)]
    simp
  · refine w3.mono fun k hk => hRreg _ (by simp only [InRange]; omega) (by simp only [InRange]; omega)
  · refine w4.mono fun k hk => hRreg _ (by simp only [InRange]; omega) (by simp only [InRange]; omega)
  · intro k hk ho j hj
    have hn := (isOld_iff _).mp ho
    obtain ⟨b, -, -, b2, b3, -⟩ := s4 k (by omega)
    rw [(b3 hn (b2 hn h3).1 j hj).1]
    have hmem := List.getElem_mem hk
    have hlong := A.funcs.long _ hmem ho
    have hxr : ¬ InRange ((parseInfos image v.infoOff v.ninfo)[k].daddr + j) kpta l.totalMem :=
      (hav _ hmem hn).notIn (InRange.add hj)
    rw [← hms, A.wait mw _ (Or.inr ⟨_, hmem, ho, by simp only [InRange]; omega⟩), w1 _ hxr, hmm _ hxr]
  · intro i hi ho
    obtain ⟨k, hk, rfl⟩ := List.getElem_of_mem hi
    have hn := (isOld_iff _).mp ho
    obtain ⟨b, -, -, b2, -, -⟩ := s4 k (by omega)
    exact (b2 hn h3).2
  · intro x hx
    rw [w1 x hx, hmm x hx]
  · intro x hx he
    rw [hms]
    exact s2 x (isEntry_iff.mpr he) (by simp only [InRange] at *; omega)

/-- What is assumed about a run of the removal: the reads of the record table are not cut short, and
while the tool waits the target does not modify patched entries or the patch region. -/
structure UnapplyAssumptions (a : Arch) (e : UnapplyEnv) (kpta : Nat) (l : Layout) (infos : List Info) :
    Prop where
  page : 48 ≤ e.page
  reads : ∀ k, ∃ lim, e.page ≤ lim ∧ e.reads k = .upTo lim
  fuel : infos.length < e.fuel
  addr : kpta + l.totalMem + e.page < 2 ^ 64
  wait : ∀ m' x, InRange x kpta l.totalMem ∨ IsEntryByte a infos x → (e.safety m').1 x = m' x

/-- The records found in a target in which the patch is in place. -/
theorem findInfos_in_place {a : Arch} {m0 m : Mem} {kpta : Nat} {l : Layout} {hdr image : List Byte}
    {off ninfo : Nat} {e : UnapplyEnv}
    (P : PatchInPlace a m0 m kpta l hdr image (parseInfos image off ninfo))
    (T : TableOk image off ninfo) (U : UnapplyAssumptions a e kpta l (parseInfos image off ninfo))
    (hui : leVal ((hdr.drop offUserInfo).take 4) = l.elfOffset + off)
    (hfit : l.elfOffset + image.length + 24 ≤ l.totalMem) :
    findInfos e ⟨kpta, some hdr, none, true⟩ m = some (parseInfos image off ninfo) := by
  have hw := U.addr
  simp only [findInfos, Bool.not_true, Bool.false_eq_true, if_false]
  rw [hui, ← Nat.add_assoc]
  have hf := U.fuel
  rw [parseInfos_length] at hf
  exact readInfos_spec m e.page U.page e.reads U.reads image (kpta + l.elfOffset) P.image
    (by intro j hj
        have := P.mapped (l.elfOffset + image.length + j) (by omega)
        rwa [show kpta + (l.elfOffset + image.length + j) = kpta + l.elfOffset + image.length + j by omega]
          at this)
    (by omega) ninfo off e.fuel 0 _ (iterOk_init _ _) hf T.fits T.noEnd T.term

theorem objectUnapply_ok {a : Arch} {e : UnapplyEnv} {chk : Bool} {l : LocalObj} {m : Mem}
    (h : (objectUnapply a e chk l m).2 = true) :
    ∃ infos hdr, findInfos e l m = some infos ∧ l.hdr = some hdr ∧ (e.safety m).2 = true ∧
      (restoreHunks a e.hunk chk (l.kpta + leVal ((hdr.drop offUserUndo).take 4)) (e.safety m).1 0 infos).2 = true ∧
      (objectUnapply a e chk l m).1 =
        munmap (restoreHunks a e.hunk chk (l.kpta + leVal ((hdr.drop offUserUndo).take 4)) (e.safety m).1 0 infos).1
          l.kpta (leVal ((hdr.drop offTotalMem).take 8)) := by
  unfold objectUnapply at h ⊢
  cases hf : findInfos e l m with
  | none => simp [hf] at h
  | some infos =>
    cases hh : l.hdr with
    | none => simp [hf, hh] at h
    | some hdr =>
      refine ⟨infos, hdr, rfl, rfl, ?_⟩
      rw [hf, hh] at h
      simp only at h ⊢
      by_cases h1 : (!(e.safety m).2) = true
      · rw [if_pos h1] at h; simp at h
      rw [if_neg h1] at h ⊢
      generalize restoreHunks a e.hunk chk (l.kpta + leVal ((hdr.drop offUserUndo).take 4)) (e.safety m).1 0 infos = R at *
      by_cases h2 : (!R.2) = true
      · rw [if_pos h2] at h; simp at h
      rw [if_neg h2] at h ⊢
      by_cases h3 : (!e.munmapOk || leVal ((hdr.drop offTotalMem).take 8) == 0) = true
      · rw [if_pos h3] at h; simp at h
      rw [if_neg h3]
      simp only [Bool.not_eq_true', Bool.not_eq_false] at h1 h2
      exact ⟨h1, h2, rfl⟩

/-- Removing a patch that is in place. -/
theorem objectUnapply_in_place {a : Arch} {m0 m : Mem} {kpta : Nat} {l : Layout} {hdr image : List Byte}
    {off ninfo : Nat} {e : UnapplyEnv}
    (P : PatchInPlace a m0 m kpta l hdr image (parseInfos image off ninfo))
    (U : UnapplyAssumptions a e kpta l (parseInfos image off ninfo))
    (hfind : findInfos e ⟨kpta, some hdr, none, true⟩ m = some (parseInfos image off ninfo))
    (huu : leVal ((hdr.drop offUserUndo).take 4) = l.userUndo)
    (htm : leVal ((hdr.drop offTotalMem).take 8) = l.totalMem)
    (hdis : EntriesDisjoint a.hunkSize (parseInfos image off ninfo))
    (hav : EntriesAvoid a.hunkSize (parseInfos image off ninfo) kpta l.totalMem)
    (hfit : l.userUndo + a.hunkSize * ninfo ≤ l.totalMem)
    (h : (objectUnapply a e false ⟨kpta, some hdr, none, true⟩ m).2 = true) :
    (∀ x, IsEntryByte a (parseInfos image off ninfo) x →
      (objectUnapply a e false ⟨kpta, some hdr, none, true⟩ m).1 x = m0 x) ∧
    (∀ x, InRange x kpta l.totalMem → (objectUnapply a e false ⟨kpta, some hdr, none, true⟩ m).1 x = none) ∧
    (∀ x, ¬ InRange x kpta l.totalMem → ¬ IsEntryByte a (parseInfos image off ninfo) x →
      (objectUnapply a e false ⟨kpta, some hdr, none, true⟩ m).1 x = (e.safety m).1 x) := by
  obtain ⟨infos, hdr', hf, hh, hs, hr, heq⟩ := objectUnapply_ok h
  rw [hfind] at hf
  simp only [Option.some.injEq] at hf hh
  subst hf; subst hh
  rw [heq]
  simp only [huu, htm] at hr ⊢
  have hlen : (parseInfos image off ninfo).length = ninfo := parseInfos_length _ _ _
  have hcomm : ninfo * a.hunkSize = a.hunkSize * ninfo := Nat.mul_comm _ _
  have hsp := restoreHunks_spec a e.hunk false (kpta + l.userUndo) (parseInfos image off ninfo) (e.safety m).1 0
    hdis (fun i hi hn => (hav i hi hn).sub (by omega) (by rw [hlen]; omega))
  simp only [Nat.zero_mul, Nat.add_zero, Nat.zero_add] at hsp
  obtain ⟨s1, s2, s3⟩ := hsp
  generalize restoreHunks a e.hunk false (kpta + l.userUndo) (e.safety m).1 0 (parseInfos image off ninfo) = R at *
  have hout : ∀ x, ¬ InRange x kpta l.totalMem → munmap R.1 kpta l.totalMem x = R.1 x := by
    intro x hx
    simp only [munmap]
    rw [if_neg (by simpa [InRange] using hx)]
  refine ⟨?_, ?_, ?_⟩
  · intro x hx
    have hx' := hx
    obtain ⟨i, hi, ho, hxi⟩ := hx
    obtain ⟨k, hk, rfl⟩ := List.getElem_of_mem hi
    have hn := (isOld_iff _).mp ho
    have hnr : ¬ InRange x kpta l.totalMem := (hav _ hi hn).notIn hxi
    rw [hout x hnr]
    simp only [InRange] at hxi
    have hj : x - (parseInfos image off ninfo)[k].daddr < a.hunkSize := by omega
    have := s3 hr k hk ⟨hn, by simp⟩ _ hj
    rw [show (parseInfos image off ninfo)[k].daddr + (x - (parseInfos image off ninfo)[k].daddr) = x by omega] at this
    rw [this]
    have hkk : (k + 1) * a.hunkSize ≤ ninfo * a.hunkSize := Nat.mul_le_mul_right _ (by omega)
    have hk1 : (k + 1) * a.hunkSize = k * a.hunkSize + a.hunkSize := by rw [Nat.add_mul]; omega
    rw [U.wait _ _ (Or.inl (by simp only [InRange]; omega)), P.saved k hk ho _ hj]
    congr 1
    omega
  · intro x hx
    simp only [munmap]
    rw [if_pos (by simpa [InRange] using hx)]
  · intro x hx he
    rw [hout x hx]
    apply s2
    intro i hi hres
    exact isEntry_iff.mpr he i hi hres.1

end Verif
