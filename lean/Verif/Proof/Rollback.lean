import Verif.Proof.Restore
/-
What a failing `objectApply` leaves behind, and the rollback from there.
-/
namespace Verif

/-- With `checkFlag` the restore loop does nothing when no record is flagged. -/
theorem restoreHunks_unflagged (a : Arch) (fs : Nat → HunkFault) (undo : Nat) (is : List Info) :
    ∀ (m : Mem) (n : Nat), (∀ i ∈ is, i.applied = false) → restoreHunks a fs true undo m n is = (m, true) := by
  induction is with
  | nil => intro m n _; rfl
  | cons i is ih =>
    intro m n h
    unfold restoreHunks
    rw [if_pos (by simp [h i (by simp)])]
    exact ih m (n + 1) fun i hi => h i (by simp [hi])

/-- Whatever fails, the three writes stay inside the region and unmap nothing. -/
theorem writeParts_frame {a : Arch} {e : ApplyEnv} {l : Layout} {undef ts : Nat}
    {hdr image : List Byte} {kpta : Nat} {m : Mem} (hh : hdr.length = 504)
    (he : 504 ≤ l.elfOffset) (hts : image.length = ts - hdrSize)
    (hj : ∀ jo, l.jmpOffset = some jo → jo = 504 ∧ 504 + jmpTableSize a undef ≤ l.elfOffset)
    (hfit : l.elfOffset + image.length ≤ l.totalMem) :
    ∀ x, ¬ InRange x kpta l.totalMem → (writeParts a e l undef ts hdr image kpta m).1 x = m x := by
  intro x hx
  unfold writeParts
  simp only
  have htake : image.take (ts - hdrSize) = image := by rw [← hts, List.take_length]
  rw [htake]
  have f1 := memWrite_frame e.wImage m (kpta + l.elfOffset) image x (by simp only [InRange] at *; omega)
  generalize memWrite e.wImage m (kpta + l.elfOffset) image = w1 at *
  have f2 := memWrite_frame e.wHdr w1.1 kpta hdr x (by simp only [InRange] at *; omega)
  generalize memWrite e.wHdr w1.1 kpta hdr = w2 at *
  split
  · exact f1
  · split
    · rw [f2, f1]
    · cases hjo : l.jmpOffset with
      | none => simp only; rw [f2, f1]
      | some jo =>
        obtain ⟨rfl, hjt⟩ := hj jo hjo
        have hl : (e.jmpTable.take (jmpTableSize a undef)).length ≤ jmpTableSize a undef := by
          rw [List.length_take]; omega
        simp only
        rw [memWrite_frame e.wJmp w2.1 (kpta + 504) _ x (by simp only [InRange] at *; omega), f2, f1]

/-- The state a run of `objectApply` that allocated memory leaves behind, successful or not: the local
records describe which entries were overwritten, and the overwritten ones are saved. -/
structure PartlyApplied (a : Arch) (m0 m : Mem) (kpta : Nat) (l : Layout) (loc : LocalObj)
    (infos : List Info) : Prop where
  addr : loc.kpta = kpta
  hdr : ∃ hdr, loc.hdr = some hdr ∧ leVal ((hdr.drop offUserUndo).take 4) = l.userUndo ∧
    leVal ((hdr.drop offTotalMem).take 8) = l.totalMem
  recs : (∃ is0, loc.infos = some is0 ∧ (∀ i ∈ is0, i.applied = false) ∧
      ∀ x, IsEntryByte a infos x → m x = m0 x) ∨
    (∃ is1, loc.infos = some is1 ∧ is1.length = infos.length ∧
      ∀ k (h : k < infos.length), ∃ b : Bool, is1[k]? = some { infos[k] with applied := b } ∧
        (infos[k].isNew = false → b = true → ∀ j, j < a.hunkSize →
          m (kpta + l.userUndo + k * a.hunkSize + j) = m0 (infos[k].daddr + j)) ∧
        (infos[k].isNew = false → b = false → ∀ j, j < a.hunkSize →
          m (infos[k].daddr + j) = m0 (infos[k].daddr + j)))

/-- The local records of the file before relocation are not flagged as applied. -/
def FileRecordsUnflagged (file : List Byte) (v : ElfView) : Prop :=
  ∀ i ∈ parseInfos (file.drop (leVal ((file.drop offKpatchOffset).take 4))) v.infoOff v.ninfo, i.applied = false

theorem objectApply_cases (a : Arch) (e : ApplyEnv) (ids : List (List Byte)) (file : List Byte) (m : Mem)
    (v : ElfView) (kpta : Nat) (hv : e.view = some v) (hr : e.region = some kpta)
    (hk : (objectApply a e ids file m).2.1.kpta ≠ 0) :
    let l := layout a e.page v.undef (totalSizeOf (file.take hdrSize)) v.infoOff v.ninfo
    (objectApply a e ids file m = (mmapFixed m kpta l.totalMem,
        ⟨kpta, some (storeLayout (file.take hdrSize) l),
          some (parseInfos (file.drop (leVal ((file.drop offKpatchOffset).take 4))) v.infoOff v.ninfo), false⟩, false)) ∨
    ∃ image, e.image = some image ∧ objectApply a e ids file m =
        installPatch a e l v (totalSizeOf (file.take hdrSize)) (storeLayout (file.take hdrSize) l) image kpta
          (mmapFixed m kpta l.totalMem) := by
  simp only
  unfold objectApply at hk ⊢
  by_cases hdup : (!e.dupOk) = true
  · rw [if_pos hdup] at hk; simp at hk
  rw [if_neg hdup] at hk ⊢
  by_cases hid : ids.contains (cstr (kpId file)) = true
  · rw [if_pos hid] at hk; simp at hk
  rw [if_neg hid] at hk ⊢
  rw [hv, hr] at hk ⊢
  simp only at hk ⊢
  by_cases hj : (decide (v.undef ≠ 0) && !e.jtblOk) = true
  · rw [if_pos hj] at hk; simp at hk
  rw [if_neg hj] at hk ⊢
  by_cases hsp : (!e.splitOk) = true
  · left; rw [if_pos hsp]
  rw [if_neg hsp] at hk ⊢
  cases him : e.image with
  | none => left; trivial
  | some image => right; exact ⟨image, rfl, rfl⟩

theorem objectApply_partly {a : Arch} {e : ApplyEnv} {ids : List (List Byte)} {file : List Byte} {m : Mem}
    {v : ElfView} {kpta : Nat} {image : List Byte} {l : Layout}
    (A : ApplyAssumptions a e file m v kpta image l) (hflag : FileRecordsUnflagged file v)
    (hk : (objectApply a e ids file m).2.1.kpta ≠ 0) :
    PartlyApplied a m (objectApply a e ids file m).1 kpta l (objectApply a e ids file m).2.1
      (parseInfos image v.infoOff v.ninfo) ∧
    ∃ mw : Mem, (∀ x, ¬ InRange x kpta l.totalMem → mw x = m x) ∧
      ∀ x, ¬ InRange x kpta l.totalMem → ¬ IsEntryByte a (parseInfos image v.infoOff v.ninfo) x →
        (objectApply a e ids file m).1 x = mw x ∨ (objectApply a e ids file m).1 x = (e.safety mw).1 x := by
  have hpg : 0 < e.page := by have := A.page; omega
  have hin := layout_ineq a e.page v.undef image.length v.infoOff v.ninfo hpg
    (by rw [← A.layout]; exact A.mem32) (by have := A.table.fits; omega)
  rw [← A.layout] at hin
  obtain ⟨i1, i2, i3, i4, i5, i6, i7⟩ := hin
  have hts : image.length = totalSizeOf (file.take hdrSize) - hdrSize := by
    rw [A.size]; simp [hdrSize]
  have hhl : (file.take hdrSize).length = 504 := by
    have := A.fileLen; rw [List.length_take]; simp only [hdrSize]; omega
  obtain ⟨hsl, -, -, g3, g4, -⟩ := storeLayout_spec (file.take hdrSize) l hhl
  have hm32 := A.mem32
  have hhdr : ∃ hdr, some (storeLayout (file.take hdrSize) l) = some hdr ∧
      leVal ((hdr.drop offUserUndo).take 4) = l.userUndo ∧
      leVal ((hdr.drop offTotalMem).take 8) = l.totalMem := by
    refine ⟨_, rfl, ?_, ?_⟩
    · rw [leVal_field g3]; omega
    · rw [leVal_field g4]; omega
  have hjm : ∀ jo, l.jmpOffset = some jo → jo = 504 ∧ 504 + jmpTableSize a v.undef ≤ l.elfOffset :=
    fun jo hjo => by
      rcases i7 with ⟨_, h⟩ | ⟨_, h, h'⟩
      · rw [h] at hjo; simp at hjo
      · rw [h] at hjo; simp at hjo; exact ⟨hjo.symm, h'⟩
  have hav : EntriesAvoid a.hunkSize (parseInfos image v.infoOff v.ninfo) kpta l.totalMem :=
    entriesAvoid_of_unmapped A.funcs A.free
  have hentry_out : ∀ x, IsEntryByte a (parseInfos image v.infoOff v.ninfo) x → ¬ InRange x kpta l.totalMem := by
    intro x hx hr
    obtain ⟨i, hi, ho, hxi⟩ := hx
    exact hav i hi ((isOld_iff _).mp ho) x ⟨hxi, hr⟩
  have hmm : ∀ x, ¬ InRange x kpta l.totalMem → mmapFixed m kpta l.totalMem x = m x := by
    intro x hx
    simp only [mmapFixed]
    rw [if_neg (by simpa [InRange] using hx)]
  have hc := objectApply_cases a e ids file m v kpta A.view A.region hk
  simp only at hc
  rw [A.size, ← A.layout] at hc
  rcases hc with hc | ⟨image', him, hc⟩
  · rw [hc]
    refine ⟨⟨rfl, hhdr, Or.inl ⟨_, rfl, hflag, ?_⟩⟩, mmapFixed m kpta l.totalMem, hmm, fun x _ _ => Or.inl rfl⟩
    intro x hx
    exact hmm x (hentry_out x hx)
  · obtain rfl := (A.relocated _ him)
    rw [hc]
    clear hc hk
    unfold installPatch
    rw [A.size] at hts
    have wf := writeParts_frame (a := a) (e := e) (undef := v.undef) (kpta := kpta)
      (m := mmapFixed m kpta l.totalMem) hsl i1 hts hjm (by omega)
    simp only
    generalize writeParts a e l v.undef (504 + image'.length) (storeLayout (file.take hdrSize) l)
      image' kpta (mmapFixed m kpta l.totalMem) = W at *
    have hW : ∀ x, ¬ InRange x kpta l.totalMem → W.1 x = m x := fun x hx => by rw [wf x hx, hmm x hx]
    by_cases h1 : (!W.2) = true
    · rw [if_pos h1]
      exact ⟨⟨rfl, hhdr, Or.inl ⟨_, rfl, A.table.noFlag, fun x hx => hW x (hentry_out x hx)⟩⟩, W.1, hW,
        fun x _ _ => Or.inl rfl⟩
    rw [if_neg h1]
    have hS : ∀ x, IsEntryByte a (parseInfos image' v.infoOff v.ninfo) x → (e.safety W.1).1 x = m x := by
      intro x hx
      rw [A.wait W.1 x (Or.inr (isOld_range_hunk A.funcs hx)), hW x (hentry_out x hx)]
    by_cases h2 : (!(e.safety W.1).2) = true
    · rw [if_pos h2]
      exact ⟨⟨rfl, hhdr, Or.inl ⟨_, rfl, A.table.noFlag, hS⟩⟩, W.1, hW, fun x _ _ => Or.inr rfl⟩
    rw [if_neg h2]
    have hlen : (parseInfos image' v.infoOff v.ninfo).length = v.ninfo := parseInfos_length _ _ _
    have hcomm : v.ninfo * a.hunkSize = a.hunkSize * v.ninfo := Nat.mul_comm _ _
    have hsp := applyHunks_spec a e.hunk (kpta + l.userUndo) (parseInfos image' v.infoOff v.ninfo)
      (e.safety W.1).1 0 (entriesDisjoint_of_funcs A.funcs)
      (fun i hi hn => (hav i hi hn).sub (by omega) (by rw [hlen]; omega)) A.table.noFlag
    simp only [Nat.zero_mul, Nat.add_zero, Nat.zero_add] at hsp
    obtain ⟨s1, s2, s3, s4⟩ := hsp
    generalize applyHunks a e.hunk (kpta + l.userUndo) (e.safety W.1).1 0 (parseInfos image' v.infoOff v.ninfo) = R at *
    have hent : ∀ k (hk : k < (parseInfos image' v.infoOff v.ninfo).length),
        (parseInfos image' v.infoOff v.ninfo)[k].isNew = false → ∀ j, j < a.hunkSize →
        (e.safety W.1).1 ((parseInfos image' v.infoOff v.ninfo)[k].daddr + j) =
          m ((parseInfos image' v.infoOff v.ninfo)[k].daddr + j) := fun k hk hn j hj =>
      hS _ ⟨_, List.getElem_mem hk, (isOld_iff _).mpr hn, InRange.add hj⟩
    refine ⟨⟨rfl, hhdr, Or.inr ⟨R.2.1, rfl, s3, ?_⟩⟩, W.1, hW, ?_⟩
    · intro k hk
      obtain ⟨b, b0, -, -, b3, b4⟩ := s4 k hk
      refine ⟨b, b0, ?_, ?_⟩
      · intro hn hb j hj
        rw [(b3 hn hb j hj).1, hent k hk hn j hj]
      · intro hn hb j hj
        rw [b4 hn hb j hj, hent k hk hn j hj]
    · intro x hx he
      right
      exact s2 x (isEntry_iff.mpr he) (by rw [hlen]; simp only [InRange] at *; omega)

theorem rollback_partly {a : Arch} {m0 m : Mem} {kpta : Nat} {l : Layout} {loc : LocalObj}
    {infos : List Info} {e : UnapplyEnv}
    (P : PartlyApplied a m0 m kpta l loc infos)
    (hwait : ∀ m' x, InRange x kpta l.totalMem ∨ IsEntryByte a infos x → (e.safety m').1 x = m' x)
    (hdis : EntriesDisjoint a.hunkSize infos)
    (hav : EntriesAvoid a.hunkSize infos kpta l.totalMem)
    (hfit : l.userUndo + a.hunkSize * infos.length ≤ l.totalMem)
    (h : (objectUnapply a e true loc m).2 = true) :
    (∀ x, IsEntryByte a infos x → (objectUnapply a e true loc m).1 x = m0 x) ∧
    (∀ x, InRange x kpta l.totalMem → (objectUnapply a e true loc m).1 x = none) ∧
    (∀ x, ¬ InRange x kpta l.totalMem → ¬ IsEntryByte a infos x →
      (objectUnapply a e true loc m).1 x = (e.safety m).1 x) := by
  obtain ⟨is, hdr', hf, hh, hs, hr, heq⟩ := objectUnapply_ok h
  obtain ⟨hdr, hdreq, huu, htm⟩ := P.hdr
  rw [hdreq] at hh
  simp only [Option.some.injEq] at hh
  subst hh
  rw [heq]
  rw [P.addr, huu] at hr ⊢
  rw [htm]
  have hcomm : infos.length * a.hunkSize = a.hunkSize * infos.length := Nat.mul_comm _ _
  have hentry_out : ∀ x, IsEntryByte a infos x → ¬ InRange x kpta l.totalMem := by
    intro x hx hr
    obtain ⟨i, hi, ho, hxi⟩ := hx
    exact hav i hi ((isOld_iff _).mp ho) x ⟨hxi, hr⟩
  have hout : ∀ (r : Mem) x, ¬ InRange x kpta l.totalMem → munmap r kpta l.totalMem x = r x := by
    intro r x hx
    simp only [munmap]
    rw [if_neg (by simpa [InRange] using hx)]
  have hin : ∀ (r : Mem) x, InRange x kpta l.totalMem → munmap r kpta l.totalMem x = none := by
    intro r x hx
    simp only [munmap]
    rw [if_pos (by simpa [InRange] using hx)]
  rcases P.recs with ⟨is0, h0, hun, hent⟩ | ⟨is1, h1, hl1, hent⟩
  · have : is = is0 := by
      simp only [findInfos, h0] at hf
      simpa using hf.symm
    subst this
    rw [restoreHunks_unflagged a e.hunk _ is _ 0 hun]
    refine ⟨?_, hin _, fun x hx he => hout _ x hx⟩
    intro x hx
    rw [hout _ x (hentry_out x hx)]
    simp only
    rw [hwait _ _ (Or.inr hx), hent x hx]
  · have : is = is1 := by
      simp only [findInfos, h1] at hf
      simpa using hf.symm
    subst this
    have hget : ∀ k (hk : k < infos.length), ∃ b : Bool, is[k]'(by omega) = { infos[k] with applied := b } ∧
        (infos[k].isNew = false → b = true → ∀ j, j < a.hunkSize →
          m (kpta + l.userUndo + k * a.hunkSize + j) = m0 (infos[k].daddr + j)) ∧
        (infos[k].isNew = false → b = false → ∀ j, j < a.hunkSize →
          m (infos[k].daddr + j) = m0 (infos[k].daddr + j)) := by
      intro k hk
      obtain ⟨b, hb, h2, h3⟩ := hent k hk
      refine ⟨b, ?_, h2, h3⟩
      rw [List.getElem?_eq_getElem (by omega)] at hb
      simpa using hb
    have hdis' : EntriesDisjoint a.hunkSize is := by
      unfold EntriesDisjoint at hdis ⊢
      rw [List.pairwise_iff_getElem] at hdis ⊢
      intro i j hi hj hij
      obtain ⟨b1, e1, -⟩ := hget i (by omega)
      obtain ⟨b2, e2, -⟩ := hget j (by omega)
      rw [e1, e2]
      exact hdis i j (by omega) (by omega) hij
    have hav' : EntriesAvoid a.hunkSize is kpta l.totalMem := by
      intro i hi
      obtain ⟨k, hk, rfl⟩ := List.getElem_of_mem hi
      obtain ⟨b1, e1, -⟩ := hget k (by omega)
      rw [e1]
      exact hav (infos[k]'(by omega)) (List.getElem_mem (by omega))
    have hsp := restoreHunks_spec a e.hunk true (kpta + l.userUndo) is (e.safety m).1 0
      hdis' (fun i hi hn => (hav' i hi hn).sub (by omega) (by rw [hl1]; omega))
    simp only [Nat.zero_mul, Nat.add_zero, Nat.zero_add] at hsp
    obtain ⟨s1, s2, s3⟩ := hsp
    generalize restoreHunks a e.hunk true (kpta + l.userUndo) (e.safety m).1 0 is = R at *
    refine ⟨?_, hin _, ?_⟩
    · intro x hx
      rw [hout _ x (hentry_out x hx)]
      have hx' := hx
      obtain ⟨i, hi, ho, hxi⟩ := hx
      obtain ⟨k, hk, rfl⟩ := List.getElem_of_mem hi
      have hn := (isOld_iff _).mp ho
      obtain ⟨b, e1, c1, c2⟩ := hget k hk
      simp only [InRange] at hxi
      have hj : x - infos[k].daddr < a.hunkSize := by omega
      have hxe : infos[k].daddr + (x - infos[k].daddr) = x := by omega
      cases b with
      | true =>
        have := s3 hr k (by omega) (by rw [e1]; exact ⟨hn, fun _ => rfl⟩) _ hj
        rw [e1] at this
        simp only at this
        rw [hxe] at this
        rw [this]
        have hkk : (k + 1) * a.hunkSize ≤ infos.length * a.hunkSize := Nat.mul_le_mul_right _ (by omega)
        have hk1 : (k + 1) * a.hunkSize = k * a.hunkSize + a.hunkSize := by rw [Nat.add_mul]; omega
        rw [hwait _ _ (Or.inl (by simp only [InRange]; omega)), c1 hn rfl _ hj, hxe]
      | false =>
        have hc2 := c2 hn rfl _ hj
        rw [hxe] at hc2
        rw [s2 x, hwait _ _ (Or.inr hx'), hc2]
        intro i hi hres hxi2
        obtain ⟨k2, hk2, rfl⟩ := List.getElem_of_mem hi
        obtain ⟨b2, e2, -⟩ := hget k2 (by omega)
        rw [e2] at hres hxi2
        have hb2 : b2 = true := by simpa using hres.2 rfl
        have hn2 : infos[k2].isNew = false := hres.1
        have hne : k ≠ k2 := by
          intro hkk
          subst hkk
          rw [e1] at e2
          simp [hb2] at e2
        simp only at hxi2
        unfold EntriesDisjoint at hdis
        rw [List.pairwise_iff_getElem] at hdis
        rcases Nat.lt_or_gt_of_ne hne with hlt | hgt
        · exact hdis k k2 hk (by omega) hlt hn hn2 x ⟨by simp only [InRange]; omega, hxi2⟩
        · exact hdis k2 k (by omega) hk hgt hn2 hn x ⟨hxi2, by simp only [InRange]; omega⟩
    · intro x hx he
      rw [hout _ x hx]
      apply s2
      intro i hi hres hxi
      obtain ⟨k, hk, rfl⟩ := List.getElem_of_mem hi
      obtain ⟨b1, e1, -⟩ := hget k (by omega)
      rw [e1] at hres hxi
      exact he ⟨infos[k]'(by omega), List.getElem_mem _, (isOld_iff _).mpr hres.1, hxi⟩

end Verif
