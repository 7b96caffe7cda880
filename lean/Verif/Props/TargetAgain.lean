import Verif.Props.Target
import Verif.Props.PatchFile
import Verif.Props.Process
/-
C83: the patch command for a process that has the patch.
-/
namespace Verif
open Cpu

theorem buildid_image {a : Arch} {page : BitVec 64} {lim : Nat} {m : Mem} {t : Obj} {x : ElfImage}
    {id' : Option (List Byte)} (H : LoadedElf a page m t x) (hlim : 2 ^ 64 ≤ lim) (hb : HasBuildId m t x id') :
    (∀ id, id' = some id → ∃ s, objBuildid lim m t = some s ∧ IsHexOf s id) ∧ (id' = none → objBuildid lim m t = none) := by
  obtain ⟨v, segs, hv, hph, b1, b2, b3, b4, b5, b6⟩ := hb
  replace hph : x.phdrs.map ElfPhdr.toNote = segs.map PSeg.header := hph
  obtain ⟨v', hv', hh, -⟩ := H.headers
  rw [hv] at hv'
  cases hv'
  obtain ⟨h, hob, -, hphs⟩ := objHeaders_ok (lim := lim) hh (by have := hh.phnum.1; omega)
  obtain ⟨c1, c2⟩ := C71_found_partial (lim := lim) (vma := v.start) (by omega) segs b1 b2 b3 b4 b5
  have e : objBuildid lim m t = lookBuildid lim m v.start (segs.map PSeg.header) := by
    unfold objBuildid
    rw [H.elf, hv]
    dsimp only
    rw [hob]
    dsimp only
    rw [hphs, hph]
    rfl
  rw [e]
  exact ⟨fun id h => c1 id (b6.trans h), fun h => c2 (b6.trans h)⟩

theorem associate_objs {bid : Obj → Option (List Byte)} {pid : Option (List Byte)} {objs : List Obj} :
    (associate bid pid objs).map (·.obj) = objs := by
  unfold associate
  have : ∀ (l : List Obj) (ps : List PObj),
      (l.foldl (fun ps o => associateOne bid pid ((o.vmas.map (·.start)).headD 0) o.hdr ps) ps).map (·.obj) = ps.map (·.obj) := by
    intro l
    induction l with
    | nil => intro ps; rfl
    | cons o l ih => intro ps; rw [List.foldl_cons, ih, associateOne_objs]
  rw [this, List.map_map]
  exact List.map_id _

theorem cstr_at {l s : List Byte} {off n : Nat} (h : StrAt l off s) (hn : s.length < n) : cstr ((l.drop off).take n) = s := by
  obtain ⟨h0, h1, h2⟩ := h
  have e : ((l.drop off).take n).take (s.length + 1) = s ++ [0#8] := by
    apply List.ext_getElem?
    intro i
    rw [List.getElem?_take]
    by_cases hi : i < s.length
    · rw [if_pos (by omega), List.getElem?_take, if_pos (by omega), List.getElem?_drop, h1 i hi, List.getElem?_append_left hi,
        List.getElem?_eq_getElem hi]
    · by_cases hi' : i = s.length
      · subst hi'
        rw [if_pos (by omega), List.getElem?_take, if_pos (by omega), List.getElem?_drop, List.getElem?_append_right (by omega)]
        simpa using h2
      · rw [if_neg (by omega), List.getElem?_eq_none (by simp; omega)]
  rw [← List.take_append_drop (s.length + 1) ((l.drop off).take n), e]
  unfold cstr
  rw [List.append_assoc, List.takeWhile_append_of_pos (by
    intro b hb
    simp only [bne_iff_ne, ne_eq]
    intro hc
    subst hc
    exact h0 hb)]
  have e0 : ((0#8 : Byte) != 0) = false := by decide
  simp only [List.cons_append, List.takeWhile_cons, e0, Bool.false_eq_true, if_false, List.append_nil]

theorem field_header {file : List Byte} {off n v : Nat} (h : FieldAt file off n v) (hn : off + n ≤ 504) :
    leVal (((file.take hdrSize).drop off).take n) = v := by
  rw [← h.ld]
  unfold ldField
  rw [List.drop_take, List.take_take, Nat.min_eq_left (by simp only [hdrSize]; omega)]

/-- C83, for a process that has the patch: if one of the objects is a patch with the id of the file (at 8) and its build id (at
88), the command fails and leaves the memory as it is.  Partial: as the other theorems about C83; objects of the kernel earlier in
the map are no ELF images; the fields of the file that describe an applied patch are 0, page 0 is not mapped and there is
nothing to wait for (as for C18). -/
theorem C83_again_partial {a : Arch} {ra : BitVec 64 → RelocArch} {w : Rela Nat → Nat} {abs : Nat} {T : TargetEnv} {text file : List Byte}
    {m1 m2 : Mem} {vs : List KVma} {pre : List (Obj × Option ElfImage)} {t : Obj} {x : ElfImage} {post : List (Obj × Option ElfImage)}
    {o : ElfObj} {n : Nat} {img : List Byte} {fns : List PatchFn}
    (C : TargetCase a w abs T text file m1 m2 vs pre t x post o n img fns)
    (hpre : ∀ p ∈ pre, p.2 = none → p.1.isElf = false)
    {q : Obj × Option ElfImage} (hq : q ∈ pre ++ post) (hp : q.1.isPatch = true)
    {s i : List Byte} (hs : StrAt file 88 s) (hs' : StrAt q.1.hdr 88 s) (hi : StrAt file 8 i) (hi' : StrAt q.1.hdr 8 i) (hil : i.length < 8)
    (hui : FieldAt file 188 4 0) (htm : FieldAt file 176 8 0) (h0 : m2 0 = none) (hwait : ∀ k m, ((T.undo k).safety m).1 = m) :
    patchProcess a ra T text file m1 m2 = some (m2, none) := by
  obtain ⟨us, u1, y, u2, hus, hue, hu1, hu2, hyl, he⟩ := process_once (ra := ra) C
  obtain ⟨s', id, hid1, hid2, hid3, hid4⟩ := C.id
  have hss : s' = s := by
    obtain ⟨f0, f1, f2⟩ := hid1
    obtain ⟨g0, g1, g2⟩ := hs
    have key : ∀ {u v : List Byte}, 0#8 ∉ u → (∀ j (h : j < u.length), file[88 + j]? = some u[j]) →
        file[88 + v.length]? = some 0#8 → ¬ v.length < u.length := by
      intro u v k0 k1 k2 hlt
      have := k1 v.length hlt
      rw [k2, Option.some.injEq] at this
      exact k0 (this ▸ List.getElem_mem hlt)
    have := key f0 f1 g2
    have := key g0 g1 f2
    apply List.ext_getElem (by omega)
    intro j j1 j2
    have e1 := f1 j j1
    rw [g1 j j2, Option.some.injEq] at e1
    exact e1.symm
  subst hss
  have hid20 : id.length = 20 := by
    obtain ⟨v, segs, _, _, _, _, _, b4, _, b6⟩ := hid3
    unfold buildIdOf at b6
    rw [Option.map_eq_some_iff] at b6
    · obtain ⟨nt, hf, b6⟩ := b6
      have h1 := List.find?_some hf
      have h2 := List.mem_of_find?_eq_some hf
      obtain ⟨sg, h3, h4⟩ := List.mem_flatMap.1 h2
      cases sg with
      | notes off ns =>
        rw [← b6]
        exact b4 off ns h3 nt h4 (by simpa using h1)
      | other _ _ => simp at h4
  have hsl : s'.length = 40 := by rw [hid2.1, hid20]
  have H : LoadedElf a (BitVec.ofNat 64 T.page) m1 t x := C.images (t, some x) (by simp)
  have hbt : objBuildid T.lim m1 t = some s' := by
    obtain ⟨s2, c1, c2⟩ := (buildid_image H C.lim hid3).1 id rfl
    rw [c1, isHex_unique c2 hid2]
  have hbp : ∀ p ∈ pre, objBuildid T.lim m1 p.1 ≠ some s' := by
    intro p hpm
    have him := C.images p (by simp [hpm])
    cases hp2 : p.2 with
    | none =>
      unfold objBuildid
      rw [hpre p hpm hp2]
      simp
    | some y =>
      rw [hp2] at him
      obtain ⟨id', i1, i2⟩ := hid4 p (by simp [hpm]) y hp2
      obtain ⟨d1, d2⟩ := buildid_image him C.lim i1
      cases id' with
      | none => rw [d2 rfl]; simp
      | some j =>
        obtain ⟨s2, e1, e2⟩ := d1 j rfl
        rw [e1]
        intro hc
        rw [Option.some.injEq] at hc
        subst hc
        exact i2 (by rw [C71_distinct e2 hid2])
  -- the object the patch is found for
  obtain ⟨po, hf1, hf2⟩ : ∃ po, (associate (objBuildid T.lim m1) none ((pre ++ (t, some x) :: post).map Prod.fst)).find?
        (fun p => p.obj == t) = some po ∧
      ownerOf (objBuildid T.lim m1) s' (associate (objBuildid T.lim m1) none ((pre ++ (t, some x) :: post).map Prod.fst)) = some po := by
    have hobj : (associate (objBuildid T.lim m1) none ((pre ++ (t, some x) :: post).map Prod.fst)).map (·.obj) = _ := associate_objs
    generalize associate (objBuildid T.lim m1) none ((pre ++ (t, some x) :: post).map Prod.fst) = l at hobj
    rw [List.map_append, List.map_cons] at hobj
    obtain ⟨l1, l2, rfl, g1, g2⟩ := List.map_eq_append_iff.1 hobj
    obtain ⟨p, l3, rfl, g3, g4⟩ := List.map_eq_cons_iff.1 g2
    have hl1 : ∀ z ∈ l1, ∃ r ∈ pre, r.1 = z.obj := by
      intro z hz
      have : z.obj ∈ pre.map Prod.fst := by rw [← g1]; exact List.mem_map_of_mem hz
      obtain ⟨r, hr, he⟩ := List.mem_map.1 this
      exact ⟨r, hr, he⟩
    refine ⟨p, ?_, ?_⟩
    · rw [List.find?_append, List.find?_eq_none.2 (fun z hz => ?_)]
      · simp [g3]
      · obtain ⟨r, hr, he⟩ := hl1 z hz
        have := hbp r hr
        rw [he] at this
        simp only [beq_iff_eq]
        intro hc
        rw [hc] at this
        exact this hbt
    · unfold ownerOf
      rw [List.find?_append, List.find?_eq_none.2 (fun z hz => ?_)]
      · simp [g3, hbt]
      · obtain ⟨r, hr, he⟩ := hl1 z hz
        have := hbp r hr
        rw [he] at this
        simpa using this
  have hin : hdrId file ∈ po.applied.map hdrId := by
    refine (associate_ids hf2 _).2 ⟨q.1, ?_, hp, ?_, ?_⟩
    · rw [List.mem_map]
      refine ⟨q, ?_, rfl⟩
      rcases List.mem_append.1 hq with h | h <;> simp [h]
    · unfold hdrBuildid
      exact cstr_at hs' (by omega)
    · unfold hdrId kpId
      rw [cstr_at hi' hil, cstr_at hi hil]
  rw [he, hf1]
  simp only [Option.map_some, Option.getD_some]
  generalize allocatePatch _ _ _ _ _ _ _ _ _ = al
  obtain ⟨r1, r2⟩ := C18_second_application_refused a
    (applyFileEnv a (ra y.load) (targetPrep T us y) { T.apply pre.length with page := T.page, region := al.2 } file)
    (T.undo pre.length) (po.applied.map hdrId) file m2 hin (field_header hui (by decide)) (field_header htm (by decide)) h0
    (hwait _)
  unfold objectApplyFile
  rw [r1, r2]
  rfl

end Verif
