import Verif.Proof.Target
import Verif.Props.PatchElfRiscv
import Mathlib.Data.Nat.Prime.Basic
/-
C83: patching a process, from the text of its memory map, its memory and the bytes of the patch file to its memory
afterwards.
-/
namespace Verif
open Cpu

/-- The build id of an image that is loaded as object `t`: that of the notes in its segments, which are in memory.  (The
further conditions are those of C71.) -/
def HasBuildId (m : Mem) (t : Obj) (x : ElfImage) (id : Option (List Byte)) : Prop :=
  ∃ v segs, t.vmas.head? = some v ∧
    x.phdrs.map (fun p => (⟨p.typ == 4, p.offset.toNat, p.memsz.toNat⟩ : NPhdr)) = segs.map PSeg.header ∧ (∀ s ∈ segs, s.Loaded m v.start 128) ∧
    (∀ off ns, PSeg.notes off ns ∈ segs → ∀ n ∈ ns, n.Fits) ∧
    (∀ off ns, PSeg.notes off ns ∈ segs → ∀ n ∈ ns, n.Unpadded ∨ n.IsBuildId) ∧
    (∀ off ns, PSeg.notes off ns ∈ segs → ∀ n ∈ ns, n.IsBuildId → n.desc.length = 20) ∧
    (∀ off ns, PSeg.notes off ns ∈ segs → 128 < (notesEncoded ns).length → ∀ n ∈ ns, ¬ n.IsBuildId) ∧
    buildIdOf segs = id

/-- Library symbols get the address of a definition in the first library that has one, moved with the library; an
indirect function the address its resolver returns. -/
def ResolvesTo (page : BitVec 64) (objs : List (Obj × Option ElfImage)) (ifunc : BitVec 64 → Option (BitVec 64))
    (resolve : CStr → BitVec 64) : Prop :=
  ∀ pre lib x post name base syms, objs = pre ++ (lib, some x) :: post →
    (name = base ∨ ∃ ver, name = base ++ 0x40#8 :: ver) → 0x40#8 ∉ base → 0#8 ∉ base →
    (∀ p ∈ pre, ¬ Provides p.1 p.2 base) → TakenForLibrary lib.name x.typ x.phdrs → x.syms = some syms →
    (∃ t v, Defines syms base t v) → (∀ t v, Defines syms base t v → x.Covers page lib v) →
    ∃ t v, Defines syms base t v ∧ resolve name = if t = .ifunc then (ifunc (v + x.load)).getD 0#64 else v + x.load

/-- The bounds of the mappings. -/
def mapBounds (vs : List KVma) : List (Nat × Nat) := vs.map fun v => (v.start, v.stop)

/-- A process and a patch file for it. `vs` are the mappings of the process, of which `text` is the map.  They are those of the
objects `pre`, `t`, `post`, each of them an image as given or nothing the tool could use.  The patch `fns` is for `t` and
for no other object.  `m1` is the memory when it is examined, `m2` when the threads have been stopped. -/
structure TargetCase (a : Arch) (w : Rela Nat → Nat) (abs : Nat) (T : TargetEnv) (text file : List Byte) (m1 m2 : Mem)
    (vs : List KVma) (pre : List (Obj × Option ElfImage)) (t : Obj) (x : ElfImage) (post : List (Obj × Option ElfImage))
    (o : ElfObj) (n : Nat) (img : List Byte) (fns : List PatchFn) : Prop where
  text : ∃ lines, MapsText vs lines text ∧ ∀ l ∈ lines, l.length ≤ 1022
  plain : ∀ v ∈ vs, v.InRange ∧ v.PlainName
  libc : ∃ v ∈ vs, v.LibcCode
  map : MapOk T.page (mapBounds vs)
  lim : 2 ^ 64 ≤ T.lim
  page : 4096 ≤ T.page ∧ T.page ∣ 0x8000000
  objects : ∀ maps, RecordedAll vs maps → MapsOk (objectType T.lim m1) maps ∧
    parseMaps (objectType T.lim m1) maps = (pre ++ (t, some x) :: post).map Prod.fst
  images : ∀ p ∈ pre ++ (t, some x) :: post, ObjectIs a (BitVec.ofNat 64 T.page) m1 p.1 p.2
  sorts : ∀ p ∈ pre ++ (t, some x) :: post, SortsTables T.qsortP T.qsortS p.2
  patch : PatchFileIs w abs file o n img fns
  id : ∃ s id, StrAt file 88 s ∧ IsHexOf s id ∧ HasBuildId m1 t x (some id) ∧
    ∀ p ∈ pre ++ post, ∀ y, p.2 = some y → ∃ id', HasBuildId m1 p.1 y id' ∧ id' ≠ some id
  small : 2 * (3 * T.page + 24 * o.syms.length + img.length + 8 * fns.length + 700) ≤ a.maxDistance
  object : objEnd t - objStart t + T.page ≤ a.maxDistance
  /-- no gap ends where the search goes wrong (`C09_violated_far_left_gap`) -/
  window : NoBoundaryHole a.maxDistance (patchMemSize a T.page file) (objEnd t) (parseHoles T.page 0 0 (mapBounds vs))
  funcs : Replaceable a m2 x.load fns
  inside : ∀ f ∈ fns, ∀ d len, f.old = some (d, len) →
    ∃ v ∈ t.vmas, v.start ≤ (d + x.load).toNat ∧ (d + x.load).toNat + len ≤ v.stop
  /-- nothing has been mapped in the meantime (`C83_violated_race`) -/
  quiet : ∀ z, m2 z ≠ none → Covered (mapBounds vs) z
  /-- the threads that run until it is safe leave the old functions and unused memory alone -/
  wait : ∀ k m z, (∃ f ∈ fns, f.oldRange x.load z) ∨ ¬ Covered (mapBounds vs) z → ((T.apply k).safety m).1 z = m z

/-- What patching does besides loading the object: `base` is where the object is, `pe` what its symbols are resolved by. -/
structure PatchedProcess (a : Arch) (T : TargetEnv) (vs : List KVma) (pre : List (Obj × Option ElfImage)) (t : Obj) (x : ElfImage)
    (post : List (Obj × Option ElfImage)) (m2 m' : Mem) (img : List Byte) (fns : List PatchFn) (pe : PrepEnv) (base : Nat) : Prop where
  load : pe.load = x.load
  resolves : ResolvesTo (BitVec.ofNat 64 T.page) (pre ++ (t, some x) :: post) T.ifunc pe.resolve
  aligned : T.page ∣ base
  bound : base + img.length ≤ 2 ^ 64
  /-- the object is where nothing was mapped -/
  fresh : ∀ k, k < img.length → ¬ Covered (mapBounds vs) (base + k)
  /-- each old function starts with the jump to the new one, which is in reach -/
  jumps : ∀ f ∈ fns, ∀ d len, f.old = some (d, len) → f.new < img.length ∧
    (a ≠ .loongarch64 → JumpReach a ((base + f.new : Nat) - (d + x.load).toNat : Int)) ∧
    ∃ code, a.hunkCode (d + x.load) (BitVec.ofNat 64 (base + f.new)) = some code ∧ Holds m' (d + x.load).toNat code
  /-- everything else that was mapped is as it was, apart from what the running threads do to it -/
  others : ∃ mw : Mem, (∀ z, Covered (mapBounds vs) z → mw z = m2 z) ∧
    ∀ z, Covered (mapBounds vs) z → (∀ f ∈ fns, ∀ d len, f.old = some (d, len) → ¬ InRange z (d + x.load).toNat a.hunkSize) →
      m' z = ((T.apply pre.length).safety mw).1 z

theorem isHex_unique {s s' id : List Byte} (h : IsHexOf s id) (h' : IsHexOf s' id) : s = s' := by
  apply List.ext_getElem?
  intro i
  by_cases hi : i < 2 * id.length
  · have h1 := h.2 (i / 2) (by omega)
    have h2 := h'.2 (i / 2) (by omega)
    rcases Nat.mod_two_eq_zero_or_one i with e | e
    · rw [show i = 2 * (i / 2) by omega, h1.1, h2.1]
    · rw [show i = 2 * (i / 2) + 1 by omega, h1.2, h2.2]
  · rw [List.getElem?_eq_none (by rw [h.1]; omega), List.getElem?_eq_none (by rw [h'.1]; omega)]

theorem strAt_header {file s : List Byte} (h : StrAt file 88 s) (hl : s.length = 40) : singleBuildid file = s := by
  obtain ⟨h0, h1, h2⟩ := h
  have e : (file.drop 88).take 41 = s ++ [0#8] := by
    apply List.ext_getElem?
    intro i
    rw [List.getElem?_take]
    by_cases hi : i < 40
    · rw [if_pos (by omega), List.getElem?_drop, h1 i (by omega), List.getElem?_append_left (by omega),
        List.getElem?_eq_getElem (by omega)]
    · by_cases hi' : i = 40
      · subst hi'
        rw [if_pos (by omega), List.getElem?_drop, List.getElem?_append_right (by omega), hl]
        rw [hl] at h2
        simpa using h2
      · rw [if_neg (by omega), List.getElem?_eq_none (by simp; omega)]
  unfold singleBuildid hdrBuildid cstr
  rw [e, List.takeWhile_append_of_pos (by
    intro b hb
    simp only [bne_iff_ne, ne_eq]
    intro hc
    subst hc
    exact h0 hb)]
  have e0 : ((0#8 : Byte) != 0) = false := by decide
  simp only [List.takeWhile_cons, e0, Bool.false_eq_true, if_false, List.append_nil]
  rw [List.take_of_length_le (by omega)]

theorem objSelected_image {a : Arch} {page : BitVec 64} {lim : Nat} {m : Mem} {file : List Byte} {t : Obj} {x : ElfImage} {s id : List Byte}
    {id' : Option (List Byte)} (H : LoadedElf a page m t x) (hlim : 2 ^ 64 ≤ lim) (hs : StrAt file 88 s) (hid : IsHexOf s id)
    (hl : id.length = 20) (hb : HasBuildId m t x id') : objSelected lim m file t = decide (id' = some id) := by
  obtain ⟨v, segs, hv, hph, b1, b2, b3, b4, b5, b6⟩ := hb
  replace hph : x.phdrs.map ElfPhdr.toNote = segs.map PSeg.header := hph
  obtain ⟨v', hv', hh, -⟩ := H.headers
  rw [hv] at hv'
  cases hv'
  obtain ⟨h, hob, -, hphs⟩ := objHeaders_ok (lim := lim) hh (by have := hh.phnum.1; omega)
  obtain ⟨c1, c2⟩ := C71_found_partial (lim := lim) (vma := v.start) (by omega) segs b1 b2 b3 b4 b5
  have hst := strAt_header hs (by rw [hid.1, hl])
  unfold objSelected objBuildid
  rw [H.elf, H.name, hv]
  dsimp only
  rw [hob]
  dsimp only
  rw [hphs, hph]
  simp only [Bool.not_true, Bool.not_false, Bool.true_and, Bool.false_eq_true, if_false]
  cases hx : buildIdOf segs with
  | none =>
    rw [c2 hx]
    rw [hx] at b6
    subst b6
    simp
  | some i =>
    obtain ⟨s', d1, d2⟩ := c1 i hx
    rw [d1]
    rw [hx] at b6
    subst b6
    unfold loadPatch getPatch
    dsimp only
    rw [hst]
    by_cases he : i = id
    · subst he
      rw [isHex_unique hid d2, if_pos rfl]
      simp
    · rw [if_neg (by
        intro hc
        rw [hc] at hid
        exact he (C71_distinct d2 hid))]
      simp [he]

theorem mapObject_load {a : Arch} {page : BitVec 64} {m : Mem} {o : Obj} {x : ElfImage} {lim : Nat}
    {qsort : List Phdr → List Phdr} (H : LoadedElf a page m o x) (hlim : 2 ^ 64 ≤ lim) {y : MappedObj}
    (h : mapObject a lim m qsort page o = some y) : y.load = x.load := by
  obtain ⟨v0, hv0, hh, p, hp, hpt, hpmin, hload⟩ := H.headers
  obtain ⟨hd, hob, ht, hph⟩ := objHeaders_ok (lim := lim) hh (by
    have := hh.phnum.1; omega)
  have hlow := lowestLoad_eq x.phdrs p hp hpt hpmin
  have hne : lowestLoad (x.phdrs.map ElfPhdr.toPhdr) ≠ BitVec.allOnes 64 := foldl_lowest _ _ (Or.inr H.wf.some_load)
  have hl : ∀ vmas, (parseProgramHeader qsort page (x.phdrs.map ElfPhdr.toPhdr) (BitVec.ofNat 64 v0.start)
      (BitVec.allOnes 64) vmas).load = x.load := by
    intro vmas
    unfold parseProgramHeader
    rw [if_neg hne]
    dsimp only
    split <;> (dsimp only; rw [hlow, hload])
  unfold mapObject at h
  rw [H.elf, H.name, if_neg (by simp), hv0] at h
  dsimp only at h
  rw [hob] at h
  dsimp only at h
  rw [hph] at h
  split at h
  · simp at h
  · simp only [Option.some.injEq] at h
    rw [← h]
    exact hl _

theorem mapObjects_length {a : Arch} {page : BitVec 64} {m : Mem} {lim : Nat} {qsort : List Phdr → List Phdr} :
    ∀ (os : List Obj) (us : List MappedObj), mapObjects a lim m qsort page os = some us → us.length = os.length
  | [], us, h => by simp only [mapObjects, Option.some.injEq] at h; rw [← h]; rfl
  | o :: os, us, h => by
    unfold mapObjects at h
    cases h1 : mapObject a lim m qsort page o with
    | none => rw [h1] at h; simp at h
    | some y =>
      rw [h1] at h
      dsimp only at h
      cases h2 : mapObjects a lim m qsort page os with
      | none => rw [h2] at h; simp at h
      | some ys =>
        rw [h2] at h
        simp only [Option.map_some, Option.some.injEq] at h
        rw [← h, List.length_cons, List.length_cons, mapObjects_length os ys h2]

theorem patchName_kernel (buf : List Byte) : kernelName (patchName buf) = true := by
  have h1 : ∀ l : List Char, ("[kpatch-".toList ++ l ++ "]".toList).getLast? = some ']' := by
    intro l
    rw [List.getLast?_append]
    rfl
  have h2 : ∀ l : List Char, ("[kpatch-".toList ++ l ++ "]".toList).head? = some '[' := by
    intro l
    rfl
  unfold kernelName patchName
  rw [String.toList_append, String.toList_append, h1, h2]
  rfl

theorem layout_pos (a : Arch) (page undef totalSize infoOff ninfo : Nat) (hp : 0 < page) (ht : 504 < totalSize + 1) :
    0 < (layout a page undef totalSize infoOff ninfo).totalMem := by
  have e := le_roundUp
  simp only [layout]
  have h0 : 504 = roundUp hdrSize 8 := by decide
  rw [← h0]
  refine Nat.lt_of_lt_of_le ?_ (e _ page hp)
  refine Nat.lt_of_lt_of_le ?_ (e _ 16 (by omega))
  refine Nat.lt_of_lt_of_le ?_ (Nat.le_add_right _ _)
  refine Nat.lt_of_lt_of_le ?_ (e _ 128 (by omega))
  have h1 : 504 ≤ roundUp (if undef ≠ 0 then roundUp (504 + jmpTableSize a undef) page else 504) page := by
    refine Nat.le_trans ?_ (e _ page hp)
    split
    · exact Nat.le_trans (Nat.le_add_right _ _) (e _ page hp)
    · exact Nat.le_refl _
  have h2 : hdrSize = 504 := rfl
  omega

theorem recorded_bounds {vs : List KVma} {maps : List Mapping} (h : RecordedAll vs maps) :
    (maps.map fun w => (w.start, w.stop)) = mapBounds vs := by
  apply List.ext_getElem?
  intro i
  rw [mapBounds, List.getElem?_map, List.getElem?_map]
  cases hv : vs[i]? with
  | none =>
    rw [List.getElem?_eq_none_iff] at hv
    rw [List.getElem?_eq_none (by rw [h.1]; exact hv)]; rfl
  | some v =>
    obtain ⟨w, hw, r⟩ := h.2 i v hv
    rw [hw]
    simp [r.start, r.stop]

theorem resolves_to {a : Arch} {w : Rela Nat → Nat} {abs : Nat} {T : TargetEnv} {text file : List Byte} {m1 m2 : Mem}
    {vs : List KVma} {pre : List (Obj × Option ElfImage)} {t : Obj} {x : ElfImage} {post : List (Obj × Option ElfImage)}
    {o : ElfObj} {n : Nat} {img : List Byte} {fns : List PatchFn}
    (C : TargetCase a w abs T text file m1 m2 vs pre t x post o n img fns) {us : List MappedObj}
    (hus : mapObjects a T.lim m1 T.qsortP (BitVec.ofNat 64 T.page) ((pre ++ (t, some x) :: post).map Prod.fst) = some us) :
    ResolvesTo (BitVec.ofNat 64 T.page) (pre ++ (t, some x) :: post) T.ifunc
      (resolveUndefined T.qsortS T.ifunc (us.map MappedObj.lib)) := by
  intro pre' lib y post' name base syms he hn hb h0 hpre hlib hsyms hdef hcov
  have hi := C.images
  have hs := C.sorts
  rw [he] at hi hs hus
  obtain ⟨tt, v, d1, d2, d3⟩ := C80_library_symbol_partial a (BitVec.ofNat 64 T.page) m1 T.lim C.lim T.qsortP T.qsortS T.ifunc
    pre' lib y post' hi hs name base hn hb h0 hpre hlib syms hsyms hdef hcov
  refine ⟨tt, v, d1, ?_⟩
  unfold resolveInTarget at d2 d3
  rw [hus] at d2 d3
  simp only [Option.map_some, Option.some.injEq] at d2 d3
  split
  · rename_i h; exact d3 h
  · rename_i h; exact d2 h

theorem mapsIs {vs : List KVma} : RecordedAll vs (vs.map KVma.mapping) :=
  ⟨by simp, fun i v hi => ⟨v.mapping, by rw [List.getElem?_map, hi]; rfl, mapping_recorded⟩⟩

/-- What the command does when the patch is for one object. -/
theorem process_once {a : Arch} {ra : BitVec 64 → RelocArch} {w : Rela Nat → Nat} {abs : Nat} {T : TargetEnv} {text file : List Byte}
    {m1 m2 : Mem} {vs : List KVma} {pre : List (Obj × Option ElfImage)} {t : Obj} {x : ElfImage} {post : List (Obj × Option ElfImage)}
    {o : ElfObj} {n : Nat} {img : List Byte} {fns : List PatchFn}
    (C : TargetCase a w abs T text file m1 m2 vs pre t x post o n img fns) :
    ∃ us u1 y u2,
      mapObjects a T.lim m1 T.qsortP (BitVec.ofNat 64 T.page) ((pre ++ (t, some x) :: post).map Prod.fst) = some us ∧
      us = u1 ++ y :: u2 ∧ u1.length = pre.length ∧ u2.length = post.length ∧ y.load = x.load ∧
      patchProcess a ra T text file m1 m2 =
        let al := allocatePatch a T.page (patchMemSize a T.page file) (objStart t) (objEnd t)
          (objPrevHole T.page (mapBounds vs) t) (T.fresh pre.length) (T.mmapOk pre.length) (parseHoles T.page 0 0 (mapBounds vs))
        let r := objectApplyFile a (ra y.load) (targetPrep T us y) { T.apply pre.length with page := T.page, region := al.2 }
          ((((associate (objBuildid T.lim m1) none ((pre ++ (t, some x) :: post).map Prod.fst)).find? fun p => p.obj == t).map
            fun p => p.applied.map hdrId).getD []) file m2
        some (if r.2.2 then (r.1, some 1) else ((objectUnapply a (T.undo pre.length) true r.2.1 r.1).1, none)) := by
  obtain ⟨lines, htext, hlen⟩ := C.text
  have hml := mapsLines_ok htext C.plain hlen _ (Nat.le_refl _)
  obtain ⟨maps, hrec, hparse, -⟩ := C82_map_read_partial T.page (objectType T.lim m1) vs lines text htext C.plain hlen
  obtain ⟨c, hc⟩ : ∃ c, vs.find? (fun v => isLibcText v.mapping) = some c := by
    obtain ⟨v, hv, hvl⟩ := C.libc
    cases hf : vs.find? (fun v => isLibcText v.mapping) with
    | some c => exact ⟨c, rfl⟩
    | none => exact absurd ((isLibcText_iff v).2 hvl) (by simpa using List.find?_eq_none.1 hf v hv)
  obtain ⟨hc1, q1, q2, hq, hq1⟩ := List.find?_eq_some_iff_append.1 hc
  replace hparse := hparse q1 c q2 hq ((isLibcText_iff c).1 hc1) (by
    intro z hz hzl
    have := hq1 z hz
    rw [(isLibcText_iff z).2 hzl] at this
    simp at this)
  obtain ⟨hmok, hobjs⟩ := C.objects maps hrec
  unfold patchProcess
  rw [hml, hparse, hobjs]
  dsimp only
  have hb1 : ((vs.map KVma.mapping).map fun w => (w.start, w.stop)) = mapBounds vs := recorded_bounds mapsIs
  rw [hb1]
  obtain ⟨us, hus, -, -⟩ := mapObjects_ok (qsortP := T.qsortP) (qsortS := T.qsortS) C.lim _ C.images C.sorts
  rw [hus]
  · dsimp only
    have H : LoadedElf a (BitVec.ofNat 64 T.page) m1 t x := C.images (t, some x) (by simp)
    -- the object among the mapped ones
    have hsplit : ∃ u1 y u2, us = u1 ++ y :: u2 ∧ u1.length = pre.length ∧ u2.length = post.length ∧ y.load = x.load := by
      rw [List.map_append, List.map_cons, mapObjects_append] at hus
      cases g1 : mapObjects a T.lim m1 T.qsortP (BitVec.ofNat 64 T.page) (pre.map Prod.fst) with
      | none => rw [g1] at hus; simp at hus
      | some u1 =>
        rw [g1] at hus
        simp only [Option.bind_some] at hus
        unfold mapObjects at hus
        cases g2 : mapObject a T.lim m1 T.qsortP (BitVec.ofNat 64 T.page) t with
        | none => rw [g2] at hus; simp at hus
        | some y =>
          rw [g2] at hus
          dsimp only at hus
          cases g3 : mapObjects a T.lim m1 T.qsortP (BitVec.ofNat 64 T.page) (post.map Prod.fst) with
          | none => rw [g3] at hus; simp at hus
          | some u2 =>
            rw [g3] at hus
            simp only [Option.map_some, Option.some.injEq] at hus
            refine ⟨u1, y, u2, hus.symm, ?_, ?_, mapObject_load H C.lim g2⟩
            · rw [mapObjects_length _ _ g1, List.length_map]
            · rw [mapObjects_length _ _ g3, List.length_map]
    obtain ⟨u1, y, u2, hue, hu1, hu2, hyl⟩ := hsplit
    obtain ⟨s, id, hid1, hid2, hid3, hid4⟩ := C.id
    have hid20 : id.length = 20 := by
      obtain ⟨v, segs, _, _, _, _, _, b4, _, b6⟩ := hid3
      unfold buildIdOf at b6
      rw [Option.map_eq_some_iff] at b6
      · obtain ⟨nt, hf, b6⟩ := b6
        have h1 := List.find?_some hf
        have h2 := List.mem_of_find?_eq_some hf
        obtain ⟨sg, h3, h4⟩ := List.mem_flatMap.1 h2
        cases sg with
        | notes off ns =>
          rw [← b6]
          exact b4 off ns h3 nt h4 (by simpa using h1)
        | other _ _ => simp at h4
    have hselt : objSelected T.lim m1 file t = true := by
      rw [objSelected_image H C.lim hid1 hid2 hid20 hid3]; simp
    have hselo : ∀ p ∈ pre ++ post, objSelected T.lim m1 file p.1 = false := by
      intro p hp
      have hi := C.images p (by
        rcases List.mem_append.1 hp with hp | hp <;> simp [hp])
      cases hp2 : p.2 with
      | none =>
        rw [hp2] at hi
        unfold objSelected
        rcases hi with hi | hi <;> simp [hi]
      | some y =>
        rw [hp2] at hi
        obtain ⟨id', i1, i2⟩ := hid4 p hp y hp2
        rw [objSelected_image hi C.lim hid1 hid2 hid20 i1]
        simp [i2]
    have hgr := parseMaps_grouped hmok
    rw [hobjs] at hgr
    have htm : t ∈ (pre ++ (t, some x) :: post).map Prod.fst := by simp
    have hnp : t.isPatch = false := by
      cases hp : t.isPatch with
      | false => rfl
      | true =>
        have := (hgr.patch t htm hp).2.1
        have hk := H.name
        rw [this, patchName_kernel] at hk
        simp at hk
    have hzip : ((pre ++ (t, some x) :: post).map Prod.fst).zip us =
        (pre.map Prod.fst).zip u1 ++ (t, y) :: (post.map Prod.fst).zip u2 := by
      rw [hue, List.map_append, List.map_cons, List.zip_append (by rw [List.length_map, hu1])]
      rfl
    have hz1 : ∀ p ∈ (pre.map Prod.fst).zip u1, objSelected T.lim m1 file p.1 = false := by
      intro p hp
      obtain ⟨q, hq, he⟩ := List.mem_map.1 (List.of_mem_zip (a := p.1) (b := p.2) hp).1
      rw [← he]
      exact hselo q (by simp [hq])
    have hz2 : ∀ p ∈ (post.map Prod.fst).zip u2, objSelected T.lim m1 file p.1 = false := by
      intro p hp
      obtain ⟨q, hq, he⟩ := List.mem_map.1 (List.of_mem_zip (a := p.1) (b := p.2) hp).1
      rw [← he]
      exact hselo q (by simp [hq])
    have hlz : 0 + ((pre.map Prod.fst).zip u1).length = pre.length := by
      rw [List.length_zip, List.length_map, hu1]; omega
    rw [if_pos (List.any_eq_true.2 ⟨t, htm, hselt⟩)]
    rw [hzip, applyTargets_skip _ _ _ hz1, applyTargets, if_neg (by rw [hselt, hnp]; simp), hlz]
    dsimp only
    refine ⟨us, u1, y, u2, rfl, hue, hu1, hu2, hyl, ?_⟩
    rw [applyTargets_none _ _ hz2]
    rfl

/-- What is known of the memory that is allocated for the patch. -/
structure Allocated (a : Arch) (T : TargetEnv) (file : List Byte) (vs : List KVma) (t : Obj) (kpta : Nat) : Prop where
  aligned : T.page ∣ kpta
  pos : 0 < kpta
  size : patchMemSize a T.page file ≤ a.maxDistance
  free : ∀ z, kpta ≤ z → z < kpta + patchMemSize a T.page file → ¬ Covered (mapBounds vs) z
  reach : a ≠ .loongarch64 → ∀ d s, objStart t ≤ d → d + a.hunkSize ≤ objEnd t → kpta ≤ s →
    s < kpta + patchMemSize a T.page file → JumpReach a ((s : Int) - d)
  addr : kpta + patchMemSize a T.page file ≤ 2 ^ 64
  next : ∀ g1 h r g2, parseHoles T.page 0 0 (mapBounds vs) = g1 ++ h :: r :: g2 → objPrevHole T.page (mapBounds vs) t = some h.id →
    objStart t ≤ r.start → r.stop - r.start > patchMemSize a T.page file →
    r.start - objStart t < a.maxDistance - patchMemSize a T.page file → kpta = roundDown r.start T.page

theorem target_lines {a : Arch} {w : Rela Nat → Nat} {abs : Nat} {T : TargetEnv} {text file : List Byte}
    {m1 m2 : Mem} {vs : List KVma} {pre : List (Obj × Option ElfImage)} {t : Obj} {x : ElfImage} {post : List (Obj × Option ElfImage)}
    {o : ElfObj} {n : Nat} {img : List Byte} {fns : List PatchFn}
    (C : TargetCase a w abs T text file m1 m2 vs pre t x post o n img fns) :
    ∃ maps : List Mapping, (maps.map fun w => (w.start, w.stop)) = mapBounds vs ∧ t.vmas.Sublist maps ∧ t.vmas ≠ [] := by
  obtain ⟨lines, htext, hlen⟩ := C.text
  obtain ⟨maps, hrec, -, -⟩ := C82_map_read_partial T.page (objectType T.lim m1) vs lines text htext C.plain hlen
  obtain ⟨hmok, hobjs⟩ := C.objects maps hrec
  have H : LoadedElf a (BitVec.ofNat 64 T.page) m1 t x := C.images (t, some x) (by simp)
  have hgr := parseMaps_grouped hmok
  rw [hobjs] at hgr
  have htm : t ∈ (pre ++ (t, some x) :: post).map Prod.fst := by simp
  refine ⟨maps, recorded_bounds hrec, hgr.sub t htm, ?_⟩
  obtain ⟨v, hv, _⟩ := H.headers
  intro hc; rw [hc] at hv; simp at hv

theorem allocated_case {a : Arch} {w : Rela Nat → Nat} {abs : Nat} {T : TargetEnv} {text file : List Byte}
    {m1 m2 : Mem} {vs : List KVma} {pre : List (Obj × Option ElfImage)} {t : Obj} {x : ElfImage} {post : List (Obj × Option ElfImage)}
    {o : ElfObj} {n : Nat} {img : List Byte} {fns : List PatchFn} {kpta fr : Nat} {mm : Bool}
    (C : TargetCase a w abs T text file m1 m2 vs pre t x post o n img fns)
    (hr : (allocatePatch a T.page (patchMemSize a T.page file) (objStart t) (objEnd t)
      (objPrevHole T.page (mapBounds vs) t) fr mm (parseHoles T.page 0 0 (mapBounds vs))).2 = some kpta) :
    Allocated a T file vs t kpta := by
  obtain ⟨maps, hbm, hsub, hne⟩ := target_lines C
  generalize hal : allocatePatch a T.page (patchMemSize a T.page file) (objStart t) (objEnd t)
      (objPrevHole T.page (mapBounds vs) t) fr mm _ = al at hr
  have hfind : ∃ hh, findRegion a T.page (patchMemSize a T.page file) (objStart t) (objEnd t)
      (objPrevHole T.page (mapBounds vs) t) (parseHoles T.page 0 0 (mapBounds vs)) = some (hh, kpta) ∧ kpta ≠ 0 := by
    unfold allocatePatch at hal
    split at hal
    · rw [← hal] at hr; simp at hr
    · rename_i hh addr hfr
      split at hal
      · rw [← hal] at hr; simp at hr
      · split at hal
        · rw [← hal] at hr; simp at hr
        · rename_i hne _
          rw [← hal] at hr
          simp only [Option.some.injEq] at hr
          subst hr
          exact ⟨hh, hfr, hne⟩
  obtain ⟨hh, hfr, hkne⟩ := hfind
  cases hprev : objPrevHole T.page (mapBounds vs) t with
  | none => rw [hprev] at hfr; simp [findRegion] at hfr
  | some prev =>
    rw [hprev] at hfr
    have hM : MapOk T.page (maps.map fun w => (w.start, w.stop)) := by rw [hbm]; exact C.map
    have hL := object_lines hM hsub hne (prev := prev) (by rw [hbm]; exact hprev)
    rw [hbm] at hL
    have hpage := C.page
    have hsize := patchMemSize_le (a := a) (page := T.page) C.patch
    have hsmall := C.small
    have hmax : a.maxDistance ≤ 2 ^ 31 := by cases a <;> decide
    have hpm : T.page ∣ patchMemSize a T.page file := by
      unfold patchMemSize
      split
      · exact Nat.dvd_zero _
      · exact Nat.dvd_of_mod_eq_zero (roundUp_mod _ _)
    obtain ⟨v0, hv0, -⟩ := fileView_of_patch C.patch
    have hpos : 0 < patchMemSize a T.page file := by
      unfold patchMemSize
      rw [hv0]
      dsimp only
      exact layout_pos _ _ _ _ _ _ (by omega) (by
        rw [show totalSizeOf (file.take hdrSize) = 504 + img.length from ?_]
        · omega
        · rw [← C.patch.total.ld]
          unfold totalSizeOf ldField
          rw [List.drop_take, List.take_take, Nat.min_eq_left (by simp [hdrSize, offTotalSize])]
          rfl)
    obtain ⟨r1, r2, r3, r4⟩ := C09_region_is_unmapped_partial a T.page _ (by omega) hpage.2 hpm (by omega) hpos (mapBounds vs) C.map
      _ _ _ _ hL C.window hh kpta hfr
    have hreach : a ≠ .loongarch64 → ∀ d s, objStart t ≤ d → d + a.hunkSize ≤ objEnd t → kpta ≤ s →
        s < kpta + patchMemSize a T.page file → JumpReach a ((s : Int) - d) := fun ha =>
      C10_region_within_reach_partial a ha T.page _ hpage.1 hpage.2 hpm (by omega) hpos (mapBounds vs) C.map
        _ _ _ _ hL C.object hh kpta hfr
    have haddr : kpta + patchMemSize a T.page file ≤ 2 ^ 64 := by
      obtain ⟨H1, _, H3, _⟩ := parseHoles_bounds T.page (by omega) (mapBounds vs) 0 0 C.map (Nat.dvd_zero _) (fun r _ => Nat.zero_le _)
      have hoe : T.page ∣ objEnd t := by
        obtain ⟨k, hk, hoe⟩ := hL.last
        have hkb := hL.bounds k (List.mem_of_getLast? hk)
        rw [List.getElem?_eq_getElem hkb] at hoe
        simp only [Option.map_some, Option.some.injEq] at hoe
        rw [← hoe]
        exact (C.map.aligned _ (List.getElem_mem hkb)).2
      obtain ⟨f1, _, _, f4, f5, _⟩ := findRegion_spec (by omega) (page_dvd_maxDistance a T.page hpage.2) hpm hoe (by omega) H1
        (H3.imp fun hlt => Nat.ne_of_lt hlt) (objectOfLines_ok (by omega) C.map hL) C.window hfr
      have := (H1.order hh f1).2.2
      unfold Hole.guardEnd at this
      split at this <;> omega
    refine ⟨r1, by omega, by omega, r4, hreach, haddr, ?_⟩
    intro g1 h r g2 q1 q2 q3 q4 q5
    obtain ⟨H1, _, H3, _⟩ := parseHoles_bounds T.page (by omega) (mapBounds vs) 0 0 C.map (Nat.dvd_zero _) (fun r _ => Nat.zero_le _)
    have hO := objectOfLines_ok (by omega) C.map hL
    have hid : h.id = prev := by rw [hprev] at q2; simpa using q2.symm
    rw [C11_next_gap_taken a T.page _ _ _ prev _ _ g1 g2 h r (by omega) H1 (H3.imp fun hlt => Nat.ne_of_lt hlt)
      ⟨by have := hO.order; omega, by have := hO.bound; omega⟩ q1 hid q3 q4 q5] at hfr
    simp only [Option.some.injEq, Prod.mk.injEq] at hfr
    exact hfr.2.symm

theorem patchCase_of {a : Arch} {w : Rela Nat → Nat} {abs : Nat} {T : TargetEnv} {text file : List Byte}
    {m1 m2 : Mem} {vs : List KVma} {pre : List (Obj × Option ElfImage)} {t : Obj} {x : ElfImage} {post : List (Obj × Option ElfImage)}
    {o : ElfObj} {n : Nat} {img : List Byte} {fns : List PatchFn} {kpta : Nat} {pe : PrepEnv} {e : ApplyEnv}
    (C : TargetCase a w abs T text file m1 m2 vs pre t x post o n img fns) (A : Allocated a T file vs t kpta)
    (hyl : pe.load = x.load) (hnm : ∀ x y, unversioned x = unversioned y → pe.resolve x = pe.resolve y)
    (hp : e.page = T.page) (hr : e.region = some kpta) (hs : e.safety = (T.apply pre.length).safety) :
    PatchCase a w abs pe e file m2 o n img fns kpta := by
  have hmax : a.maxDistance ≤ 2 ^ 31 := by cases a <;> decide
  have hpage := C.page
  have hsz := A.size
  exact {
    patch := C.patch
    names := hnm
    page := by rw [hp]; omega
    region := hr
    pos := A.pos
    mem32 := by rw [hp]; omega
    free := by
      intro z hz
      rw [hp] at hz
      by_cases hm : m2 (kpta + z) = none
      · exact hm
      · exact absurd (C.quiet _ hm) (A.free _ (by omega) (by omega))
    addr := by rw [hp]; exact A.addr
    funcs := by rw [hyl]; exact C.funcs
    wait := by
      intro mm z hz
      rw [hs]
      rw [hp, hyl] at hz
      apply C.wait
      rcases hz with hz | hz
      · exact Or.inr (A.free z hz.1 hz.2)
      · exact Or.inl hz }

/-- What the command does, up to the decoding of instructions. -/
theorem patch_process {a : Arch} {ra : BitVec 64 → RelocArch} {w : Rela Nat → Nat} {abs : Nat} {T : TargetEnv} {text file : List Byte}
    {m1 m2 m' : Mem} {vs : List KVma} {pre : List (Obj × Option ElfImage)} {t : Obj} {x : ElfImage} {post : List (Obj × Option ElfImage)}
    {o : ElfObj} {n : Nat} {img : List Byte} {fns : List PatchFn} {k : Nat}
    (C : TargetCase a w abs T text file m1 m2 vs pre t x post o n img fns)
    (hl : ∀ load sec e, LocalAct ((ra load).act sec e) w)
    (hns : ∀ load i, o.isRela i → ∀ r ∈ o.rels i, ∀ p s, o.syms[r.sym]? = some p → p.2.sym.shndx = s.shndx →
      p.2.sym.typ = s.typ → p.2.sym.bind = s.bind → (ra load).Simple r s)
    (hst : ∀ load, StoresAddress (ra load) abs)
    (h : patchProcess a ra T text file m1 m2 = some (m', some k)) :
    k = 1 ∧ ∃ (pe : PrepEnv) (e : ApplyEnv) (ids : List (List Byte)) (kpta : Nat) (v : ElfView) (image : List Byte) (l : Layout),
      pe.load = x.load ∧ LoadCase a (ra pe.load) pe e file m2 o w n img v kpta image l ∧
      (objectApplyFile a (ra pe.load) pe e ids file m2).2.2 = true ∧ (objectApplyFile a (ra pe.load) pe e ids file m2).1 = m' ∧
      PatchedProcess a T vs pre t x post m2 m' img fns pe (kpta + l.elfOffset) ∧
      e.page = T.page ∧ e.safety = (T.apply pre.length).safety ∧ T.page ∣ kpta ∧ l.totalMem = patchMemSize a T.page file ∧ (∀ z, InRange z kpta l.totalMem → ¬ Covered (mapBounds vs) z) ∧
      parseInfos image v.infoOff v.ninfo = fns.map (PatchFn.info (BitVec.ofNat 64 (kpta + l.elfOffset)) pe.load) := by
  obtain ⟨us, u1, y, u2, hus, hue, hu1, hu2, hyl, he⟩ := process_once (ra := ra) C
  · rw [he] at h
    generalize hal : allocatePatch a T.page (patchMemSize a T.page file) (objStart t) (objEnd t)
      (objPrevHole T.page (mapBounds vs) t) (T.fresh pre.length) (T.mmapOk pre.length) _ = al at h
    dsimp only at h
    split at h
    rotate_left
    · simp at h
    rename_i hok
    simp only [Prod.mk.injEq, Option.some.injEq] at h
    obtain ⟨hm', hk⟩ := h
    refine ⟨hk.symm, ?_⟩
    -- the region
    obtain ⟨_, kpta, _, _, _, hr, _⟩ := objectApply_ok a _ _ file m2 hok
    have hr : al.2 = some kpta := hr
    have A := allocated_case C (by rw [hal]; exact hr)
    have r1 := A.aligned
    have r4 := A.free
    have hreach := A.reach
    have haddr := A.addr
    obtain ⟨maps, hbm, hsub, hne⟩ := target_lines C
    have hM : MapOk T.page (maps.map fun w => (w.start, w.stop)) := by rw [hbm]; exact C.map
    have hpage := C.page
    · have hfun : Replaceable a m2 x.load fns := C.funcs
      have hPC : PatchCase a w abs (targetPrep T us y) { T.apply pre.length with page := T.page, region := al.2 } file m2 o n img fns kpta :=
        patchCase_of C A hyl (by
          intro p q hpq
          show resolveUndefined _ _ _ p = resolveUndefined _ _ _ q
          unfold resolveUndefined
          rw [hpq]) rfl hr rfl
      have hok' := hok
      obtain ⟨v, image, l, LC, hmem, hilen, hpar⟩ := case_of_patch hPC (hl y.load) (hns y.load) (hst y.load) hok'
      refine ⟨targetPrep T us y, _, _, kpta, v, image, l, hyl, LC, hok, hm', ?_, rfl, rfl, r1, hmem, fun z hz => r4 z hz.1 (by
        have hmem : l.totalMem = patchMemSize a T.page file := hmem
        rw [← hmem]; exact hz.2), hpar⟩
      have hmem : l.totalMem = patchMemSize a T.page file := hmem
      have hlay := LC.apply.layout
      have hin := layout_ineq a T.page v.undef image.length v.infoOff v.ninfo (by omega)
        (by have := LC.apply.mem32; rw [LC.apply.layout] at this; exact this) (by have := LC.apply.table.fits; omega)
      have hle : layout a T.page v.undef (504 + image.length) v.infoOff v.ninfo = l := by rw [LC.apply.layout]; rfl
      rw [hle] at hin
      obtain ⟨i1, i2, i3, i4, -, -⟩ := hin
      obtain ⟨syms, L⟩ := load_case LC (hl y.load) (hns y.load) hok
      obtain ⟨P, -, mw, P1, P2⟩ := objectApply_in_place LC.apply hok
      have hout : ∀ z, Covered (mapBounds vs) z → ¬ InRange z kpta l.totalMem := by
        intro z hz hc
        rw [hmem] at hc
        exact r4 z hc.1 hc.2 hz
      rw [hpar] at P2
      have hj := P.jumps
      rw [hpar] at hj
      exact {
        load := hyl
        resolves := resolves_to C hus
        aligned := (Nat.dvd_add_iff_right r1).1 (Nat.dvd_of_mod_eq_zero i4)
        bound := by omega
        fresh := by
          intro k hk
          exact r4 _ (by omega) (by omega)
        jumps := by
          intro f hf d len he
          have hnew : f.new < img.length := by
            obtain ⟨j, hj⟩ := List.getElem?_of_mem hf
            obtain ⟨ii, q1, q2, q3⟩ := C.patch.replaces.records (fun hc => by rw [hc] at hf; simp at hf)
            exact (q3 j f hj).new.1
          obtain ⟨vm, hvm, b1, b2⟩ := C.inside f hf d len he
          obtain ⟨b3, b4⟩ := object_vma_bounds hM hsub hvm
          have hlong := (hfun.long f hf d len he).1
          refine ⟨hnew, fun ha => hreach ha _ _ (by omega) (by omega) (by omega) (by omega), ?_⟩
          have hd : ∀ b : BitVec 64, (PatchFn.info b (targetPrep T us y).load f).daddr = (d + x.load).toNat ∧
              (PatchFn.info b (targetPrep T us y).load f).dlen = len ∧
              (PatchFn.info b (targetPrep T us y).load f).saddr = (b + BitVec.ofNat 64 f.new).toNat := by
            intro b
            have : (targetPrep T us y).load = x.load := hyl
            rw [this]
            simp [PatchFn.info, he]
          have hs0 : 0 < a.hunkSize := by cases a <;> decide
          obtain ⟨code, c1, c2⟩ := hj _ (List.mem_map.2 ⟨f, hf, rfl⟩) (by
            intro hc
            have := hc.2
            rw [(hd _).2.1] at this
            omega)
          rw [(hd _).1, (hd _).2.2, BitVec.ofNat_toNat, BitVec.ofNat_toNat, BitVec.setWidth_eq, BitVec.setWidth_eq, ← BitVec.ofNat_add] at c1
          rw [(hd _).1] at c2
          exact ⟨code, c1, by rw [← hm']; exact c2⟩
        others := by
          refine ⟨mw, fun z hz => P1 z (hout z hz), ?_⟩
          intro z hz hne
          rw [← hm']
          refine P2 z (hout z hz) ?_
          rintro ⟨i, hi, ho, hr⟩
          obtain ⟨f, hf, rfl⟩ := List.mem_map.1 hi
          cases hx : f.old with
          | none => exact absurd ⟨by simp [PatchFn.info, hx], by simp [PatchFn.info, hx]⟩ ho
          | some q =>
            refine hne f hf q.1 q.2 hx ?_
            have hd : (PatchFn.info (BitVec.ofNat 64 (kpta + l.elfOffset)) (targetPrep T us y).load f).daddr = (q.1 + x.load).toNat := by
              have : (targetPrep T us y).load = x.load := hyl
              rw [this]
              simp [PatchFn.info, hx]
            rw [hd] at hr
            exact hr }

theorem toInt_distance (s : Nat) (d : BitVec 64) (c : Nat) :
    (BitVec.ofNat 64 s - (d + BitVec.ofNat 64 c)).toInt = ((s : Int) - d.toNat - c).bmod (2 ^ 64) := by
  have e : BitVec.ofNat 64 s - (d + BitVec.ofNat 64 c) = BitVec.ofInt 64 ((s : Int) - d.toNat - c) := by
    rw [Int.sub_sub, Int.sub_eq_add_neg, BitVec.ofInt_add, BitVec.ofInt_neg, BitVec.ofInt_add, BitVec.ofInt_natCast, BitVec.ofInt_natCast,
      BitVec.ofInt_natCast, BitVec.ofNat_toNat, BitVec.setWidth_eq, BitVec.sub_eq_add_neg]
  rw [e, BitVec.toInt_ofInt]

theorem bmod_small {z : Int} (h1 : -(2 ^ 40) ≤ z) (h2 : z < 2 ^ 40) : z.bmod (2 ^ 64) = z :=
  Int.bmod_eq_of_le (by omega) (by omega)

theorem x86_stores (load : BitVec 64) : StoresAddress (x86RelocArch load) 1 := by
  intro sec _ r s d bs ht hu htl hw
  have hw : x86Act load sec (r.decode x86RelOf) s d = .write bs := hw
  have hd : r.decode x86RelOf = ⟨r.offset, .r64, r.sym, r.addend⟩ := by rw [Rela.decode, ht]; rfl
  rw [hd] at hw
  obtain ⟨d1, d2⟩ := x86_act_denotes load sec ⟨r.offset, .r64, r.sym, r.addend⟩ s d bs .abs64 rfl hw trivial
  refine ⟨d1, ?_⟩
  have e : x86Wanted load sec.isInfo ⟨r.offset, .r64, r.sym, r.addend⟩ s = s.value + r.addend := by
    simp [x86Wanted, hu, x86IsGot]
  rw [e] at d2
  exact d2

theorem a64_stores (load : BitVec 64) : StoresAddress (a64RelocArch load) 257 := by
  intro sec _ r s d bs ht hu htl hw
  have hw : a64Act load sec (r.decode a64RelOf) s d = .write bs := hw
  have hd : r.decode a64RelOf = ⟨r.offset, .abs64, r.sym, r.addend⟩ := by rw [Rela.decode, ht]; rfl
  rw [hd] at hw
  obtain ⟨d1, d2⟩ := a64_act_denotes load sec ⟨r.offset, .abs64, r.sym, r.addend⟩ s d bs .abs64 rfl hw trivial trivial
  refine ⟨d1, ?_⟩
  have e : a64Wanted load sec.isInfo ⟨r.offset, .abs64, r.sym, r.addend⟩ s = s.value + r.addend := by
    simp [a64Wanted, hu, htl]
  rw [e] at d2
  exact d2

theorem loong_stores (load : BitVec 64) : StoresAddress (loongRelocArch load) 2 := by
  intro sec _ r s d bs ht hu htl hw
  have hw : loongAct load sec (r.decode loongRelOf) s d = .write bs := hw
  have hd : r.decode loongRelOf = ⟨r.offset, .r64, r.sym, r.addend⟩ := by rw [Rela.decode, ht]; rfl
  rw [hd] at hw
  obtain ⟨d1, d2⟩ := loong_act_denotes load sec ⟨r.offset, .r64, r.sym, r.addend⟩ s d bs .abs64 rfl hw (by simp)
  exact ⟨d1, d2⟩

theorem rv_stores (peek : BitVec 64 → Option (BitVec 64)) (load : BitVec 64) : StoresAddress (rvRelocArch peek load) 2 := by
  intro sec e r s d bs ht hu htl hw
  have hw : rvActElf load sec e r s d = .write bs := hw
  have hd : r.decode rvRelOf = ⟨r.offset, .r64, r.sym, r.addend⟩ := by rw [Rela.decode, ht]; rfl
  unfold rvActElf at hw
  rw [hd] at hw
  simp only [rvApply, Act.write.injEq] at hw
  subst hw
  exact ⟨rfl, field64_le64 _⟩

/-- The relocated fields of the object denote the intended addresses, x86-64 (as in C79). -/
def X86Relocated (pe : PrepEnv) (o : ElfObj) (base : Nat) (syms : List Sym) (m' : Mem) : Prop :=
  ∀ i, o.isRela i → ∀ r ∈ o.rels i, (r.typ ∈ [0, 18, 23] ∨ ∃ ty, (r.typ, ty) ∈ x86Numbers) ∧
    ∀ ty u, (r.typ, ty) ∈ x86Numbers → x86Use ty = some u →
      let p := base + o.place i r
      let x := x86Wanted pe.load (decide (o.secName (o.sec i).info = lit ".kpatch.info"))
        ⟨r.offset, ty, r.sym, r.addend⟩ (symAt syms r.sym)
      u.canDenote (BitVec.ofNat 64 p) x →
      ∃ bs, bs.length = u.width ∧ Holds m' p bs ∧ u.denotes (BitVec.ofNat 64 p) bs = some x

/-- The same for AArch64. -/
def A64Relocated (pe : PrepEnv) (o : ElfObj) (img : List Byte) (base : Nat) (syms : List Sym) (m' : Mem) : Prop :=
  ∀ i, o.isRela i → ∀ r ∈ o.rels i, (r.typ ∈ [0, 542] ∨ ∃ ty, (r.typ, ty) ∈ a64Numbers) ∧
    ∀ ty u, (r.typ, ty) ∈ a64Numbers → a64Use ty (symAt syms r.sym) = some u →
      let p := base + o.place i r
      let r' : Rela A64Rel := ⟨r.offset, ty, r.sym, r.addend⟩
      let x := a64Wanted pe.load (decide (o.secName (o.sec i).info = lit ".kpatch.info")) r' (symAt syms r.sym)
      let old := bytesAt img (o.place i r) u.width
      u.canDenote (BitVec.ofNat 64 p) x old → a64Handled r' (symAt syms r.sym) x old →
      ∃ bs, bs.length = u.width ∧ Holds m' p bs ∧ u.denotes (BitVec.ofNat 64 p) x old bs

/-- The same for LoongArch. -/
def LoongRelocated (o : ElfObj) (img : List Byte) (base : Nat) (syms : List Sym) (m' : Mem) : Prop :=
  ∀ i, o.isRela i → ∀ r ∈ o.rels i, ∀ ty u, (r.typ, ty) ∈ loongNumbers → loongUse ty = some u →
    let p := base + o.place i r
    let x := (symAt syms r.sym).value + r.addend
    (u = .branch16 → x = BitVec.ofNat 64 p) →
    ∃ bs, bs.length = u.width ∧ Holds m' p bs ∧ u.denotes (BitVec.ofNat 64 p) x (bytesAt img (o.place i r) u.width) bs

theorem page_four {a : Arch} {w : Rela Nat → Nat} {abs : Nat} {T : TargetEnv} {text file : List Byte} {m1 m2 : Mem}
    {vs : List KVma} {pre : List (Obj × Option ElfImage)} {t : Obj} {x : ElfImage} {post : List (Obj × Option ElfImage)}
    {o : ElfObj} {n : Nat} {img : List Byte} {fns : List PatchFn}
    (C : TargetCase a w abs T text file m1 m2 vs pre t x post o n img fns) : 4 ∣ T.page := by
  obtain ⟨k1, k2⟩ := C.page
  obtain ⟨i, hi, hp⟩ := (Nat.dvd_prime_pow Nat.prime_two).1 (show T.page ∣ 2 ^ 27 from k2)
  rw [hp]
  have h2 : 2 ≤ i := by
    rcases Nat.lt_or_ge i 2 with h | h
    · have : 2 ^ i ≤ 2 ^ 2 := Nat.pow_le_pow_right (by omega) (by omega)
      omega
    · exact h
  exact Nat.pow_dvd_pow 2 h2

theorem jump_aligned {a : Arch} {w : Rela Nat → Nat} {abs : Nat} {T : TargetEnv} {text file : List Byte} {m1 m2 m' : Mem}
    {vs : List KVma} {pre : List (Obj × Option ElfImage)} {t : Obj} {x : ElfImage} {post : List (Obj × Option ElfImage)}
    {o : ElfObj} {n : Nat} {img : List Byte} {fns : List PatchFn} {pe : PrepEnv} {base : Nat}
    (C : TargetCase a w abs T text file m1 m2 vs pre t x post o n img fns)
    (P : PatchedProcess a T vs pre t x post m2 m' img fns pe base) {d : BitVec 64} {s : Nat} (h : 4 ∣ s ∧ 4 ∣ d.toNat) :
    (BitVec.ofNat 64 (base + s) - d).toNat % 4 = 0 := by
  have h4 := page_four C
  have hb := Nat.dvd_trans h4 P.aligned
  rw [BitVec.toNat_sub, BitVec.toNat_ofNat]
  omega

/-- C83 for x86-64: if the command reports success, then exactly one object was patched; the patch's object is, page
aligned, where nothing was mapped, with its symbols resolved as the process has them and its relocations done; each old
function starts with a jump to its replacement; and no other byte of a mapping was changed by the command.  Partial: see
`TargetCase`; nothing may be mapped between the reading of the map and the stopping of the threads
(`C83_violated_race`), and relocations as in C79. -/
theorem C83_x86_partial {T : TargetEnv} {text file : List Byte} {m1 m2 m' : Mem} {vs : List KVma}
    {pre : List (Obj × Option ElfImage)} {t : Obj} {x : ElfImage} {post : List (Obj × Option ElfImage)}
    {o : ElfObj} {n : Nat} {img : List Byte} {fns : List PatchFn} {k : Nat}
    (C : TargetCase .x86 x86FieldSize 1 T text file m1 m2 vs pre t x post o n img fns)
    (h : patchProcess .x86 x86RelocArch T text file m1 m2 = some (m', some k)) :
    k = 1 ∧ ∃ pe base syms, PatchedProcess .x86 T vs pre t x post m2 m' img fns pe base ∧
      ObjectInMemory .x86 pe o x86FieldSize img base syms m' ∧ X86Relocated pe o base syms m' ∧
      ∀ f ∈ fns, ∀ d len, f.old = some (d, len) →
        ∃ bs, bs.length = 5 ∧ Holds m' (d + x.load).toNat bs ∧ x86Jmp (d + x.load) bs = some (BitVec.ofNat 64 (base + f.new)) := by
  obtain ⟨hk, pe, e, ids, kpta, v, image, l, h1, h2, h3, h4, h5, -⟩ := patch_process C
    (fun load sec _ => (x86_local load sec).decode x86_fieldSize)
    (fun load _ _ r _ _ s _ _ _ _ => x86_simple load r s)
    x86_stores h
  obtain ⟨syms, g1, g2, -⟩ := C79_x86_partial h2 h3
  rw [h4] at g1 g2
  refine ⟨hk, pe, _, syms, h5, g1, g2, ?_⟩
  intro f hf d len he
  obtain ⟨j1, j2, code, j3, j4⟩ := h5.jumps f hf d len he
  refine ⟨code, hunkCode_length _ _ _ _ j3, j4, ?_⟩
  simp only [Arch.hunkCode, Option.some.injEq] at j3
  subst j3
  have hr := j2 (by decide)
  simp only [JumpReach] at hr
  have hd := toInt_distance (kpta + l.elfOffset + f.new) (d + x.load) 5
  rw [bmod_small (by omega) (by omega)] at hd
  rw [← BitVec.sub_sub] at hd
  exact x86_jump _ _ (by omega) (by omega)

/-- C83 for AArch64.  Partial: as for x86-64; the functions are aligned as instructions are; and no relocation of a
thread-local variable of the patch itself (see C79). -/
theorem C83_aarch64_partial {T : TargetEnv} {text file : List Byte} {m1 m2 m' : Mem} {vs : List KVma}
    {pre : List (Obj × Option ElfImage)} {t : Obj} {x : ElfImage} {post : List (Obj × Option ElfImage)}
    {o : ElfObj} {n : Nat} {img : List Byte} {fns : List PatchFn} {k : Nat}
    (C : TargetCase .aarch64 a64FieldSize 257 T text file m1 m2 vs pre t x post o n img fns)
    (htls : ∀ i, o.isRela i → ∀ r ∈ o.rels i, ∀ s, o.syms[r.sym]? = some s → ¬ (s.2.sym.typ = .tls ∧ s.2.sym.bind = .loc))
    (halign : ∀ f ∈ fns, ∀ d len, f.old = some (d, len) → 4 ∣ f.new ∧ 4 ∣ (d + x.load).toNat)
    (h : patchProcess .aarch64 a64RelocArch T text file m1 m2 = some (m', some k)) :
    k = 1 ∧ ∃ pe base syms, PatchedProcess .aarch64 T vs pre t x post m2 m' img fns pe base ∧
      ObjectInMemory .aarch64 pe o a64FieldSize img base syms m' ∧ A64Relocated pe o img base syms m' ∧
      ∀ f ∈ fns, ∀ d len, f.old = some (d, len) →
        ∃ bs, bs.length = 4 ∧ Holds m' (d + x.load).toNat bs ∧ aarch64B (d + x.load) bs = some (BitVec.ofNat 64 (base + f.new)) := by
  obtain ⟨hk, pe, e, ids, kpta, v, image, l, h1, h2, h3, h4, h5, -⟩ := patch_process C
    (fun load sec _ => (a64_local load sec).decode a64_fieldSize)
    (by
      intro load i hi r hr p s hp _ e2 e3
      have := htls i hi r hr p hp
      rw [e2, e3] at this
      exact a64_simple load r s this)
    a64_stores h
  obtain ⟨syms, g1, g2, -⟩ := C79_aarch64_partial h2 htls h3
  rw [h4] at g1 g2
  refine ⟨hk, pe, _, syms, h5, g1, g2, ?_⟩
  intro f hf d len he
  obtain ⟨j1, j2, code, j3, j4⟩ := h5.jumps f hf d len he
  refine ⟨code, hunkCode_length _ _ _ _ j3, j4, ?_⟩
  simp only [Arch.hunkCode, Option.some.injEq] at j3
  subst j3
  have hr := j2 (by decide)
  simp only [JumpReach] at hr
  have hd := toInt_distance (kpta + l.elfOffset + f.new) (d + x.load) 0
  rw [bmod_small (by omega) (by omega)] at hd
  rw [show BitVec.ofNat 64 0 = 0#64 from rfl, BitVec.add_zero] at hd
  exact aarch64_jump _ _ (jump_aligned C h5 (halign f hf d len he)) (by omega) (by omega)

/-- C83 for LoongArch.  Partial: as for AArch64. -/
theorem C83_loongarch_partial {T : TargetEnv} {text file : List Byte} {m1 m2 m' : Mem} {vs : List KVma}
    {pre : List (Obj × Option ElfImage)} {t : Obj} {x : ElfImage} {post : List (Obj × Option ElfImage)}
    {o : ElfObj} {n : Nat} {img : List Byte} {fns : List PatchFn} {k : Nat}
    (C : TargetCase .loongarch64 loongFieldSize 2 T text file m1 m2 vs pre t x post o n img fns)
    (halign : ∀ f ∈ fns, ∀ d len, f.old = some (d, len) → 4 ∣ f.new ∧ 4 ∣ (d + x.load).toNat)
    (h : patchProcess .loongarch64 loongRelocArch T text file m1 m2 = some (m', some k)) :
    k = 1 ∧ ∃ pe base syms, PatchedProcess .loongarch64 T vs pre t x post m2 m' img fns pe base ∧
      ObjectInMemory .loongarch64 pe o loongFieldSize img base syms m' ∧ LoongRelocated o img base syms m' ∧
      ∀ f ∈ fns, ∀ d len, f.old = some (d, len) →
        ∃ bs, bs.length = 4 ∧ Holds m' (d + x.load).toNat bs ∧ loongB (d + x.load) bs = some (BitVec.ofNat 64 (base + f.new)) := by
  obtain ⟨hk, pe, e, ids, kpta, v, image, l, h1, h2, h3, h4, h5, -⟩ := patch_process C
    (fun load sec _ => (loong_local load sec).decode loong_fieldSize)
    (fun load _ _ r _ _ s _ _ _ _ => loong_simple load r s)
    loong_stores h
  obtain ⟨syms, g1, g2, -⟩ := C79_loongarch_partial h2 h3
  rw [h4] at g1 g2
  refine ⟨hk, pe, _, syms, h5, g1, g2, ?_⟩
  intro f hf d len he
  obtain ⟨j1, j2, code, j3, j4⟩ := h5.jumps f hf d len he
  refine ⟨code, hunkCode_length _ _ _ _ j3, j4, ?_⟩
  have h4' := jump_aligned C h5 (halign f hf d len he)
  generalize BitVec.ofNat 64 (kpta + l.elfOffset + f.new) = s at *
  generalize d + x.load = d at *
  simp only [Arch.hunkCode, loongCode] at j3
  split at j3
  · contradiction
  · rename_i hr
    simp only [Option.some.injEq] at j3
    simp only [loongOutOfRange, loongImm26, BitVec.toInt_sshiftRight, Int.shiftRight_eq_div_pow,
      Bool.or_eq_true, decide_eq_true_eq] at hr
    subst j3
    exact loong_jump d s h4' (by omega) (by omega)

/-- C83 for RISC-V.  Partial: as for x86-64; the replacements are at even offsets, as instructions are; and relocations as in
`C79_riscv_partial`. -/
theorem C83_riscv_partial {peek : BitVec 64 → Option (BitVec 64)} {T : TargetEnv} {text file : List Byte} {m1 m2 m' : Mem} {vs : List KVma}
    {pre : List (Obj × Option ElfImage)} {t : Obj} {x : ElfImage} {post : List (Obj × Option ElfImage)}
    {o : ElfObj} {n : Nat} {img : List Byte} {fns : List PatchFn} {k : Nat}
    (C : TargetCase .riscv64 rvFieldSize 2 T text file m1 m2 vs pre t x post o n img fns)
    (hslot : ∀ i, o.isRela i → ∀ r ∈ o.rels i, ∀ s, o.syms[r.sym]? = some s → ¬ RvSlot r s.2.sym)
    (halign : ∀ f ∈ fns, f.new % 2 = 0)
    (h : patchProcess .riscv64 (rvRelocArch peek) T text file m1 m2 = some (m', some k)) :
    k = 1 ∧ ∃ pe base syms, PatchedProcess .riscv64 T vs pre t x post m2 m' img fns pe base ∧
      ObjectInMemory .riscv64 pe o rvFieldSize img base syms m' ∧ RvRelocated pe o img base syms m' ∧
      ∀ f ∈ fns, ∀ d len, f.old = some (d, len) →
        ∃ bs, bs.length = 8 ∧ Holds m' (d + x.load).toNat bs ∧ rvFarJump (d + x.load) bs = some (BitVec.ofNat 64 (base + f.new)) := by
  obtain ⟨hk, pe, e, ids, kpta, v, image, l, h1, h2, h3, h4, h5, -⟩ := patch_process C
    rv_localElf
    (by
      intro load i hi r hr p s hp e1 e2 e3
      have := hslot i hi r hr p hp
      unfold RvSlot at this
      rw [e1, e2] at this
      exact rv_simple peek load r s this)
    (rv_stores peek) h
  obtain ⟨syms, g1, g2, -⟩ := C79_riscv_partial h2 hslot h3
  rw [h4] at g1 g2
  refine ⟨hk, pe, _, syms, h5, g1, g2, ?_⟩
  intro f hf d len he
  obtain ⟨j1, j2, code, j3, j4⟩ := h5.jumps f hf d len he
  refine ⟨code, hunkCode_length _ _ _ _ j3, j4, ?_⟩
  simp only [Arch.hunkCode, Option.some.injEq] at j3
  subst j3
  have hr := j2 (by decide)
  simp only [JumpReach] at hr
  have hd := toInt_distance (kpta + l.elfOffset + f.new) (d + x.load) 0
  rw [bmod_small (by omega) (by omega)] at hd
  rw [show BitVec.ofNat 64 0 = 0#64 from rfl, BitVec.add_zero] at hd
  have hev : (BitVec.ofNat 64 (kpta + l.elfOffset + f.new)).toNat % 2 = 0 := by
    have hb := Nat.dvd_trans (page_four C) h5.aligned
    have := halign f hf
    rw [BitVec.toNat_ofNat]
    omega
  exact riscv_jump _ _ hev (by omega) (by omega)

end Verif
