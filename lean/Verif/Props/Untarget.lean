import Verif.Model.Untarget
import Verif.Props.TargetAgain
import Verif.Props.Restore
import Verif.Props.Objects
import Verif.Proof.Runs
/-
C86: removing a patch from a process, from the text of its memory map and its memory to its memory afterwards.
-/
namespace Verif
open Cpu

/-- A process with a patch of id `pid` for the build id written as `s`: the memory of the patch starts at `kpta`.  `vs` are the
mappings of the process, of which `text` is the map; they are those of the objects `pre`, `t`, `post`.  The build id is that of
`t` and of no object before it.  `sel` are the build ids and names the user has given. -/
structure UnpatchCase (a : Arch) (T : TargetEnv) (text : List Byte) (m : Mem) (vs : List KVma) (pre : List (Obj × Option ElfImage))
    (t : Obj) (x : ElfImage) (post : List (Obj × Option ElfImage)) (s pid : List Byte) (sel : List (List Byte)) (kpta : Nat) : Prop where
  text : ∃ lines, MapsText vs lines text ∧ ∀ l ∈ lines, l.length ≤ 1022
  plain : ∀ v ∈ vs, v.InRange ∧ v.PlainName
  libc : ∃ v ∈ vs, v.LibcCode
  lim : 2 ^ 64 ≤ T.lim
  objects : ∀ maps, RecordedAll vs maps → MapsOk (objectType T.lim m) maps ∧
    parseMaps (objectType T.lim m) maps = (pre ++ (t, some x) :: post).map Prod.fst
  images : ∀ p ∈ pre ++ (t, some x) :: post, ObjectIs a (BitVec.ofNat 64 T.page) m p.1 p.2
  sorts : ∀ p ∈ pre ++ (t, some x) :: post, SortsTables T.qsortP T.qsortS p.2
  kernel : ∀ p ∈ pre, p.2 = none → p.1.isElf = false
  id : ∃ id, IsHexOf s id ∧ HasBuildId m t x (some id) ∧
    ∀ p ∈ pre, ∀ y, p.2 = some y → ∃ id', HasBuildId m p.1 y id' ∧ id' ≠ some id
  /-- the memory of the patch is its own mapping -/
  area : ∃ w ∈ vs, w.start = kpta ∧ w.readable = true ∧ w.writable = false ∧ w.executable = true ∧ w.name = [] ∧ kpta + 504 ≤ w.stop
  /-- there is no other patch with this id -/
  only : ∀ w ∈ vs, w.start ≠ kpta → ¬ (Holds m w.start kpatchMagic ∧ Holds m (w.start + 8) (pid ++ [0#8]))
  select : sel = [] ∨ s ∈ sel ∨ objNameBytes t ∈ sel

theorem holds_sub {m : Mem} {x : Nat} {bs : List Byte} (h : Holds m x bs) (off n : Nat) : Holds m (x + off) ((bs.drop off).take n) := by
  intro j hj
  have hj' := hj
  rw [List.length_take, List.length_drop] at hj'
  rw [Nat.add_assoc, h (off + j) (by omega), List.getElem_take, List.getElem_drop]

/-- What is known of the header of a patch. -/
structure PatchHeader (hdr s pid : List Byte) : Prop where
  len : hdr.length = 504
  magic : hdr.take 8 = kpatchMagic
  id : StrAt hdr 8 pid
  short : pid.length < 8
  build : StrAt hdr 88 s

theorem assoc_split {bid : Obj → Option (List Byte)} {pid s : List Byte} {K : Nat} {H : List Byte} (hid : hdrId H = pid)
    (hb : hdrBuildid H = s) {A : List Obj} {t : Obj} (hA : ∀ o ∈ A, bid o ≠ some s) (ht : bid t = some s) :
    ∀ (L : List Obj), (∀ q ∈ L, hdrId q.hdr = pid → q.hdr = H ∧ (q.vmas.map (·.start)).headD 0 = K) →
    ∀ (l1 : List PObj) (p : PObj) (l3 : List PObj), l1.map (·.obj) = A → p.obj = t → (∀ z ∈ l1 ++ l3, z.target = none) →
      (p.target ≠ none → p.target = some (K, H) ∧ (p.applied.any fun h => hdrId h = hdrId H) = true) →
      ∃ l1' p' l3', L.foldl (fun ps o => associateOne bid (some pid) ((o.vmas.map (·.start)).headD 0) o.hdr ps) (l1 ++ p :: l3) =
          l1' ++ p' :: l3' ∧ l1'.map (·.obj) = A ∧ p'.obj = t ∧ (∀ z ∈ l1' ++ l3', z.target = none) ∧
        (p'.target ≠ none → p'.target = some (K, H) ∧ (p'.applied.any fun h => hdrId h = hdrId H) = true) ∧
        ((p.target ≠ none ∨ ∃ q ∈ L, hdrId q.hdr = pid) → p'.target ≠ none) := by
  have anyAdd : ∀ (ap : List (List Byte)) (h : List Byte) (i : List Byte), (ap.any fun z => hdrId z = i) = true →
      ((addApplied ap h).any fun z => hdrId z = i) = true := by
    intro ap h i hi
    unfold addApplied
    split
    · exact hi
    · rw [List.any_append, hi]; rfl
  have anySelf : ∀ (ap : List (List Byte)) (h : List Byte), ((addApplied ap h).any fun z => hdrId z = hdrId h) = true := by
    intro ap h
    unfold addApplied
    split
    · assumption
    · rw [List.any_append]; simp
  -- one step that leaves the targets alone
  have keep : ∀ (k : Nat) (h : List Byte), hdrId h ≠ pid → ∀ (ps : List PObj), (∀ z ∈ ps, z.target = none) →
      ∀ z ∈ associateOne bid (some pid) k h ps, z.target = none := by
    intro k h hne ps hps
    exact target_from_patch_one bid (some pid) k h (fun z => z.target = none) (by
      intro o ho _
      dsimp only
      rw [if_neg (by simpa using fun hc => hne hc.symm)]
      exact ho) ps hps
  intro L
  induction L with
  | nil =>
    intro _ l1 p l3 h1 h2 h3 h4
    exact ⟨l1, p, l3, rfl, h1, h2, h3, h4, fun h => by simpa using h⟩
  | cons q L ih =>
    intro hL l1 p l3 h1 h2 h3 h4
    rw [List.foldl_cons]
    have hl1 : ∀ z ∈ l1, bid z.obj ≠ some s := fun z hz => hA _ (by rw [← h1]; exact List.mem_map_of_mem hz)
    have hfirst : ∀ (k : Nat) (h : List Byte) (l1 : List PObj), (∀ z ∈ l1, bid z.obj ≠ some (hdrBuildid h)) → ∀ p l3,
        bid p.obj = some (hdrBuildid h) → associateOne bid (some pid) k h (l1 ++ p :: l3) =
          l1 ++ { p with applied := addApplied p.applied h,
                         target := if some pid = some (hdrId h) then some (k, h) else p.target } :: l3 := by
      intro k h l1
      induction l1 with
      | nil => intro _ p l3 hp; rw [List.nil_append, associateOne, if_pos hp]; rfl
      | cons z l1 ih1 =>
        intro hz p l3 hp
        rw [List.cons_append, associateOne, if_neg (hz z (by simp)), ih1 (fun y hy => hz y (by simp [hy])) p l3 hp]
        rfl
    have hsplit : ∀ (k : Nat) (h : List Byte) (l1 : List PObj), ∀ p l3, (bid p.obj ≠ some (hdrBuildid h)) →
        associateOne bid (some pid) k h (l1 ++ p :: l3) = associateOne bid (some pid) k h l1 ++ p :: l3 ∨
        associateOne bid (some pid) k h (l1 ++ p :: l3) = l1 ++ p :: associateOne bid (some pid) k h l3 := by
      intro k h l1
      induction l1 with
      | nil =>
        intro p l3 hp
        right
        rw [List.nil_append, associateOne, if_neg hp]
        rfl
      | cons z l1 ih1 =>
        intro p l3 hp
        rw [List.cons_append, associateOne, associateOne]
        by_cases hz : bid z.obj = some (hdrBuildid h)
        · rw [if_pos hz, if_pos hz]; left; rfl
        · rw [if_neg hz, if_neg hz]
          rcases ih1 p l3 hp with e | e
          · left; rw [e]; rfl
          · right; rw [e]; rfl
    have hL' : ∀ q ∈ L, hdrId q.hdr = pid → q.hdr = H ∧ (q.vmas.map (·.start)).headD 0 = K := fun z hz => hL z (by simp [hz])
    by_cases hs : hdrBuildid q.hdr = s
    · rw [hfirst _ _ l1 (by rw [hs]; exact hl1) p l3 (by rw [hs, h2]; exact ht)]
      by_cases hq : hdrId q.hdr = pid
      · obtain ⟨g1, g2⟩ := hL q (by simp) hq
        rw [if_pos (by rw [hq]), g2, g1]
        obtain ⟨l1', p', l3', r1, r2, r3, r4, r5, r6⟩ := ih hL' l1 { p with applied := addApplied p.applied H, target := some (K, H) } l3
          h1 h2 h3 (fun _ => ⟨rfl, anySelf _ _⟩)
        exact ⟨l1', p', l3', r1, r2, r3, r4, r5, fun _ => r6 (Or.inl (by simp))⟩
      · rw [if_neg (by simpa using fun hc => hq hc.symm)]
        obtain ⟨l1', p', l3', r1, r2, r3, r4, r5, r6⟩ := ih hL' l1 { p with applied := addApplied p.applied q.hdr } l3
          h1 h2 h3 (fun hn => ⟨(h4 hn).1, anyAdd _ _ _ (h4 hn).2⟩)
        refine ⟨l1', p', l3', r1, r2, r3, r4, r5, fun hh => r6 ?_⟩
        rcases hh with hh | ⟨z, hz, hz'⟩
        · exact Or.inl hh
        · rcases List.mem_cons.1 hz with rfl | hz
          · exact absurd hz' hq
          · exact Or.inr ⟨z, hz, hz'⟩
    · have hq : hdrId q.hdr ≠ pid := by
        intro hq
        rw [(hL q (by simp) hq).1] at hs
        exact hs hb
      have fin : ∀ l1 l3 : List PObj, l1.map (·.obj) = A → (∀ z ∈ l1 ++ l3, z.target = none) → _ := fun l1 l3 g1 g2 => ih hL' l1 p l3 g1 h2 g2 h4
      rcases hsplit ((q.vmas.map (·.start)).headD 0) q.hdr l1 p l3 (by rw [h2, ht]; simpa using fun hc => hs hc.symm) with e | e
      all_goals rw [e]
      · obtain ⟨l1', p', l3', r1, r2, r3, r4, r5, r6⟩ := fin (associateOne bid (some pid) ((q.vmas.map (·.start)).headD 0) q.hdr l1) l3
          (by rw [associateOne_objs, h1])
          (by
            intro z hz
            rcases List.mem_append.1 hz with hz | hz
            · exact keep _ _ hq l1 (fun y hy => h3 y (by simp [hy])) z hz
            · exact h3 z (by simp [hz]))
        refine ⟨l1', p', l3', r1, r2, r3, r4, r5, fun hh => r6 ?_⟩
        rcases hh with hh | ⟨z, hz, hz'⟩
        · exact Or.inl hh
        · rcases List.mem_cons.1 hz with rfl | hz
          · exact absurd hz' hq
          · exact Or.inr ⟨z, hz, hz'⟩
      · obtain ⟨l1', p', l3', r1, r2, r3, r4, r5, r6⟩ := fin l1 (associateOne bid (some pid) ((q.vmas.map (·.start)).headD 0) q.hdr l3) h1
          (by
            intro z hz
            rcases List.mem_append.1 hz with hz | hz
            · exact h3 z (by simp [hz])
            · exact keep _ _ hq l3 (fun y hy => h3 y (by simp [hy])) z hz)
        refine ⟨l1', p', l3', r1, r2, r3, r4, r5, fun hh => r6 ?_⟩
        rcases hh with hh | ⟨z, hz, hz'⟩
        · exact Or.inl hh
        · rcases List.mem_cons.1 hz with rfl | hz
          · exact absurd hz' hq
          · exact Or.inr ⟨z, hz, hz'⟩

theorem unapply_skip (a : Arch) (bid : Obj → Option (List Byte)) (nameBytes : Obj → List Byte) (sel : List (List Byte))
    (env : Nat → UnapplyEnv) (m : Mem) (rest : List PObj) : ∀ (l : List PObj) (k : Nat), (∀ z ∈ l, z.target = none) →
      unapplyPatches a bid nameBytes sel env k m (l ++ rest) = unapplyPatches a bid nameBytes sel env (k + l.length) m rest
  | [], k, _ => rfl
  | z :: l, k, h => by
    rw [List.cons_append, unapplyPatches, h z (by simp)]
    dsimp only
    rw [unapply_skip a bid nameBytes sel env m rest l (k + 1) (fun y hy => h y (by simp [hy])), List.length_cons,
      show k + 1 + l.length = k + (l.length + 1) by omega]

theorem strAt_of_holds {m : Mem} {x : Nat} {buf pid : List Byte} {off : Nat} (h : Holds m x buf) (hl : off + pid.length < buf.length)
    (hc : cstr ((buf.drop off).take 8) = pid) (h8 : pid.length < 8) : Holds m (x + off) (pid ++ [0#8]) := by
  have key : ∀ (l : List Byte), cstr l = pid → pid.length < l.length → l.take (pid.length + 1) = pid ++ [0#8] := by
    clear hc hl
    intro l
    induction l generalizing pid with
    | nil => intro _ h; simp at h
    | cons b l ih =>
      intro h1 h2
      unfold cstr at h1
      rw [List.takeWhile_cons] at h1
      split at h1
      · subst h1
        rw [List.length_cons, List.take_succ_cons, List.cons_append]
        congr 1
        exact ih (by rw [List.length_cons] at h8; exact Nat.lt_of_succ_lt h8) rfl (by simpa using h2)
      · rename_i hb
        subst h1
        have hb : b = 0#8 := by simpa using hb
        simp [hb]
  have e := key _ hc (by rw [List.length_take, List.length_drop]; omega)
  rw [← e]
  rw [List.take_take, Nat.min_eq_left (by omega)]
  exact holds_sub h off _

/-- What the command does when one patch has the id. -/
theorem unpatch_once {a : Arch} {T : TargetEnv} {text : List Byte} {m : Mem} {vs : List KVma} {pre : List (Obj × Option ElfImage)}
    {t : Obj} {x : ElfImage} {post : List (Obj × Option ElfImage)} {s pid : List Byte} {sel : List (List Byte)} {kpta : Nat} {hdr : List Byte}
    (C : UnpatchCase a T text m vs pre t x post s pid sel kpta) (P : PatchHeader hdr s pid) (hh : Holds m kpta hdr)
    (hm : Mapped m kpta 1024) :
    unpatchProcess a T text (some pid) sel m = some (
      let r := objectUnapply a (T.undo pre.length) false ⟨kpta, some hdr, none, true⟩ m
      (r.1, if r.2 then some 1 else none)) := by
  obtain ⟨lines, htext, hlen⟩ := C.text
  obtain ⟨maps, hrec, hparse, -⟩ := C82_map_read_partial T.page (objectType T.lim m) vs lines text htext C.plain hlen
  obtain ⟨c, hc⟩ : ∃ c, vs.find? (fun v => isLibcText v.mapping) = some c := by
    obtain ⟨v, hv, hvl⟩ := C.libc
    cases hf : vs.find? (fun v => isLibcText v.mapping) with
    | some c => exact ⟨c, rfl⟩
    | none => exact absurd ((isLibcText_iff v).2 hvl) (by simpa using List.find?_eq_none.1 hf v hv)
  obtain ⟨hc1, q1, q2, hq, hq1⟩ := List.find?_eq_some_iff_append.1 hc
  replace hparse := hparse q1 c q2 hq ((isLibcText_iff c).1 hc1) (by
    intro z hz hzl
    have := hq1 z hz
    rw [(isLibcText_iff z).2 hzl] at this
    simp at this)
  obtain ⟨hmok, hobjs⟩ := C.objects maps hrec
  unfold unpatchProcess
  rw [hparse, hobjs]
  dsimp only
  obtain ⟨us, hus, -, -⟩ := mapObjects_ok (qsortP := T.qsortP) (qsortS := T.qsortS) C.lim _ C.images C.sorts
  rw [hus]
  · dsimp only
    have hgr := parseMaps_grouped hmok
    rw [hobjs] at hgr
    -- the buffer with the header of the patch
    have hlim := C.lim
    obtain ⟨buf, hbuf, hbl, hbh⟩ := memRead_full (lim := T.lim) (by omega) hm
    have hbhdr : buf.take 504 = hdr := by
      have h1 : Holds m kpta (buf.take 504) := by simpa using holds_sub hbh 0 504
      exact h1.unique hh (by rw [List.length_take, hbl, P.len]; rfl)
    have htake : ∀ off n, off + n ≤ 504 → (buf.drop off).take n = (hdr.drop off).take n := by
      intro off n hn
      rw [← hbhdr, List.drop_take, List.take_take, Nat.min_eq_left (by omega)]
    have hid : hdrId buf = pid := by
      unfold hdrId kpId
      rw [htake 8 8 (by omega)]
      exact cstr_at P.id P.short
    obtain ⟨w, hw, w1, w2, w3, w4, w5, w6⟩ := C.area
    obtain ⟨i, hi⟩ := List.getElem?_of_mem hw
    obtain ⟨wm, hwm, wr⟩ := hrec.2 i w hi
    have hwm := List.mem_of_getElem? hwm
    have htype : objectType T.lim m wm = .kpatch buf := by
      unfold objectType
      rw [wr.start, w1, hbuf]
      dsimp only
      rw [if_pos]
      refine ⟨by rw [wr.prot, w2, w3, w4]; rfl, ?_, by rw [wr.stop]; simp only [hdrSize]; omega, ?_⟩
      · rcases wr.name with ⟨-, h2⟩ | ⟨h1, -⟩ | ⟨h1, -⟩
        · rw [h2]; decide
        · exact absurd w5 h1
        · rw [w5] at h1; simp at h1
      · have := htake 0 8 (by omega)
        rw [List.drop_zero, List.drop_zero] at this
        rw [this, P.magic]
    -- the patches among the objects
    have hpat : ∀ q ∈ (pre ++ (t, some x) :: post).map Prod.fst, q.isPatch = true → hdrId q.hdr = pid →
        q.hdr = buf ∧ (q.vmas.map (·.start)).headD 0 = kpta := by
      intro q hq hp hqi
      obtain ⟨-, -, v, hv, hty⟩ := hgr.patch q hq hp
      have hvm : v ∈ maps := (hgr.sub q hq).subset (by rw [hv]; simp)
      obtain ⟨j, hj, hjv⟩ := List.getElem_of_mem hvm
      obtain ⟨v', hv'⟩ : ∃ v', vs[j]? = some v' := ⟨vs[j]'(by rw [← hrec.1]; exact hj), List.getElem?_eq_getElem _⟩
      obtain ⟨v2, hv2, vr⟩ := hrec.2 j v' hv'
      rw [List.getElem?_eq_getElem hj, hjv, Option.some.injEq] at hv2
      subst hv2
      unfold objectType at hty
      cases hr : memRead T.lim m v.start 1024 with
      | none => rw [hr] at hty; simp at hty
      | some b =>
        rw [hr] at hty
        dsimp only at hty
        split at hty
        rotate_left
        · split at hty <;> simp at hty
        rename_i hcond
        simp only [ObjType.kpatch.injEq] at hty
        obtain ⟨bl, bh⟩ := memRead_ok _ _ _ _ _ hr
        by_cases hst : v'.start = kpta
        · rw [vr.start, hst] at hr
          rw [hbuf, Option.some.injEq] at hr
          rw [hv, ← hty, ← hr]
          exact ⟨rfl, by simp [vr.start, hst]⟩
        · exfalso
          refine C.only v' (List.mem_of_getElem? hv') hst ?_
          rw [← vr.start]
          constructor
          · rw [← hcond.2.2.2]; simpa using holds_sub bh 0 8
          · have hp8 := P.short
            refine strAt_of_holds bh (by rw [bl]; omega) ?_ P.short
            rw [← hty] at hqi
            exact hqi
    obtain ⟨pq, hpq1, hpq2, hpq3⟩ : ∃ q ∈ (pre ++ (t, some x) :: post).map Prod.fst, q.isPatch = true ∧ hdrId q.hdr = pid := by
      have : wm ∈ ((pre ++ (t, some x) :: post).map Prod.fst).flatMap (·.vmas) := hgr.perm.mem_iff.2 hwm
      obtain ⟨q, hq, hqv⟩ := List.mem_flatMap.1 this
      cases hp : q.isPatch with
      | false => exact absurd htype ((hgr.plain q hq hp wm hqv).1 buf)
      | true =>
        obtain ⟨-, -, v, hv, hty⟩ := hgr.patch q hq hp
        rw [hv, List.mem_singleton] at hqv
        subst hqv
        rw [htype, ObjType.kpatch.injEq] at hty
        exact ⟨q, hq, hp, by rw [← hty]; exact hid⟩
    -- the object
    obtain ⟨id, hid2, hid3, hid4⟩ := C.id
    have hid20 : id.length = 20 := by
      obtain ⟨v, segs, _, _, _, _, _, b4, _, b6⟩ := hid3
      unfold buildIdOf at b6
      rw [Option.map_eq_some_iff] at b6
      · obtain ⟨nt, hf, b6⟩ := b6
        have h1 := List.find?_some hf
        have h2 := List.mem_of_find?_eq_some hf
        obtain ⟨sg, h3, h4⟩ := List.mem_flatMap.1 h2
        cases sg with
        | notes off ns =>
          rw [← b6]
          exact b4 off ns h3 nt h4 (by simpa using h1)
        | other _ _ => simp at h4
    have hsl : s.length = 40 := by rw [hid2.1, hid20]
    have hbs : hdrBuildid buf = s := by
      unfold hdrBuildid
      rw [htake 88 41 (by omega)]
      exact cstr_at P.build (by omega)
    have H : LoadedElf a (BitVec.ofNat 64 T.page) m t x := C.images (t, some x) (by simp)
    have hbt : objBuildid T.lim m t = some s := by
      obtain ⟨s2, c1, c2⟩ := (buildid_image H C.lim hid3).1 id rfl
      rw [c1, isHex_unique c2 hid2]
    have hbp : ∀ o ∈ pre.map Prod.fst, objBuildid T.lim m o ≠ some s := by
      intro o ho
      obtain ⟨p, hpm, rfl⟩ := List.mem_map.1 ho
      have him := C.images p (by simp [hpm])
      cases hp2 : p.2 with
      | none =>
        unfold objBuildid
        rw [C.kernel p hpm hp2]
        simp
      | some y =>
        rw [hp2] at him
        obtain ⟨id', i1, i2⟩ := hid4 p hpm y hp2
        obtain ⟨d1, d2⟩ := buildid_image him C.lim i1
        cases id' with
        | none => rw [d2 rfl]; simp
        | some j =>
          obtain ⟨s2, e1, e2⟩ := d1 j rfl
          rw [e1]
          intro hc
          rw [Option.some.injEq] at hc
          subst hc
          exact i2 (by rw [C71_distinct e2 hid2])
    have htm : t ∈ (pre ++ (t, some x) :: post).map Prod.fst := by simp
    have hnp : t.isPatch = false := by
      cases hp : t.isPatch with
      | false => rfl
      | true =>
        have := (hgr.patch t htm hp).2.1
        have hk := H.name
        rw [this, patchName_kernel] at hk
        simp at hk
    obtain ⟨l1, p, l3, e1, e2, e3, e4, e5, e6⟩ := assoc_split (bid := objBuildid T.lim m) hid hbs hbp hbt
      (((pre ++ (t, some x) :: post).map Prod.fst).filter (·.isPatch))
      (by
        intro q hq hi
        obtain ⟨h1, h2⟩ := List.mem_filter.1 hq
        exact hpat q h1 h2 hi)
      ((pre.map Prod.fst).map fun o => ⟨o, [], none⟩) ⟨t, [], none⟩ ((post.map Prod.fst).map fun o => ⟨o, [], none⟩)
      (by rw [List.map_map]; exact List.map_id _) rfl
      (by
        intro z hz
        rcases List.mem_append.1 hz with hz | hz <;> (obtain ⟨o, -, rfl⟩ := List.mem_map.1 hz; rfl))
      (fun h => absurd rfl h)
    have e6 := e6 (Or.inr ⟨pq, List.mem_filter.2 ⟨hpq1, hpq2⟩, hpq3⟩)
    obtain ⟨e5, e7⟩ := e5 e6
    have hps : associate (objBuildid T.lim m) (some pid) ((pre ++ (t, some x) :: post).map Prod.fst) = l1 ++ p :: l3 := by
      rw [← e1]
      unfold associate
      rw [List.map_append (f := Prod.fst), List.map_cons, List.map_append, List.map_cons]
    rw [hps]
    have hl1 : 0 + l1.length = pre.length := by
      have := congrArg List.length e2
      simpa using this
    rw [if_neg]
    rotate_left
    · rw [List.all_append, List.all_cons, e5]
      simp
    rw [unapply_skip _ _ _ _ _ _ _ _ _ (fun z hz => e4 z (by simp [hz])), hl1, unapplyPatches, e5]
    dsimp only
    have hne : p.applied.isEmpty = false := by
      cases hp : p.applied with
      | nil => rw [hp] at e7; simp at e7
      | cons _ _ => rfl
    have hsel : shouldUnapply (objBuildid T.lim m) objNameBytes sel p.obj = true := by
      rw [shouldUnapply_iff, e3]
      rcases C.select with h | h | h
      · exact .inl h
      · exact .inr ⟨s, h, by rw [hbt]; simp, .inl hbt⟩
      · exact .inr ⟨_, h, by rw [hbt]; simp, .inr rfl⟩
    rw [if_neg (by rw [e3, hnp, hne, ← e3, hsel]; simp), e7, show hdrSize = 504 from rfl, hbhdr]
    have hrest : ∀ k m', unapplyPatches a (objBuildid T.lim m) objNameBytes sel T.undo k m' l3 = (m', some 0) := by
      intro k m'
      have := unapply_skip a (objBuildid T.lim m) objNameBytes sel T.undo m' [] l3 k (fun z hz => e4 z (by simp [hz]))
      rw [List.append_nil] at this
      rw [this]
      rfl
    generalize objectUnapply a (T.undo pre.length) false _ m = r
    rw [hrest]
    cases r.2 <;> rfl

theorem strAt_unique {file s s' : List Byte} {off : Nat} (h : StrAt file off s) (h' : StrAt file off s') : s = s' := by
  obtain ⟨f0, f1, f2⟩ := h
  obtain ⟨g0, g1, g2⟩ := h'
  have key : ∀ {u v : List Byte}, 0#8 ∉ u → (∀ j (h : j < u.length), file[off + j]? = some u[j]) →
      file[off + v.length]? = some 0#8 → ¬ v.length < u.length := by
    intro u v k0 k1 k2 hlt
    have := k1 v.length hlt
    rw [k2, Option.some.injEq] at this
    exact k0 (this ▸ List.getElem_mem hlt)
  have := key f0 f1 g2
  have := key g0 g1 f2
  apply List.ext_getElem (by omega)
  intro j j1 j2
  have e1 := f1 j j1
  rw [g1 j j2, Option.some.injEq] at e1
  exact e1.symm

theorem storeLayout_byte {hdr : List Byte} {l : Layout} (h : hdr.length = 504) {k : Nat} (hk : k < 164) :
    (storeLayout hdr l)[k]? = hdr[k]? := by
  obtain ⟨h1, -, -, -, -, h2⟩ := storeLayout_spec hdr l h
  have e := h2 k 1 (by omega)
  unfold getField at e
  rw [if_pos (by omega), if_pos (by omega), Option.some.injEq] at e
  have f : ∀ z : List Byte, z.length = 504 → (z.drop k).take 1 = [z[k]!] := by
    intro z hz
    rw [List.drop_eq_getElem_cons (by omega), getElem!_pos z k (by omega), List.take_succ_cons, List.take_zero]
  rw [f _ h1, f _ h] at e
  rw [List.getElem?_eq_getElem (by omega), List.getElem?_eq_getElem (by omega)]
  rw [getElem!_pos _ _ (by omega), getElem!_pos _ _ (by omega)] at e
  simp only [leVal] at e
  congr 1
  apply BitVec.eq_of_toNat_eq
  omega

theorem patch_header {file s pid : List Byte} {l : Layout} (hf : 504 ≤ file.length) (hmagic : file.take 8 = kpatchMagic)
    (hid : StrAt file 8 pid) (hshort : pid.length < 8) (hs : StrAt file 88 s) (hsl : s.length ≤ 40) :
    PatchHeader (storeLayout (file.take hdrSize) l) s pid := by
  have hl : (file.take hdrSize).length = 504 := by rw [List.length_take]; simp only [hdrSize]; omega
  have hb : ∀ k, k < 164 → (storeLayout (file.take hdrSize) l)[k]? = file[k]? := by
    intro k hk
    rw [storeLayout_byte hl hk, List.getElem?_take, if_pos (by simp only [hdrSize]; omega)]
  have str : ∀ (z : List Byte) off, StrAt file off z → off + z.length < 164 → StrAt (storeLayout (file.take hdrSize) l) off z := by
    rintro z off ⟨h0, h1, h2⟩ hz
    exact ⟨h0, fun j hj => by rw [hb _ (by omega)]; exact h1 j hj, by rw [hb _ hz]; exact h2⟩
  refine ⟨(storeLayout_spec _ l hl).1, ?_, str _ _ hid (by omega), hshort, str _ _ hs (by omega)⟩
  rw [← hmagic]
  apply List.ext_getElem?
  intro k
  rw [List.getElem?_take, List.getElem?_take]
  split
  · exact hb k (by omega)
  · rfl

/-- The architectures and their relocations, as in C79: on AArch64 the object has no relocation of a thread-local variable of
its own, on RISC-V none for a slot of a variable of a library. -/
inductive TargetArch : Arch → (BitVec 64 → RelocArch) → (Rela Nat → Nat) → Nat → ElfObj → Prop
  | x86 {o : ElfObj} : TargetArch .x86 x86RelocArch x86FieldSize 1 o
  | aarch64 {o : ElfObj} : (∀ i, o.isRela i → ∀ r ∈ o.rels i, ∀ s, o.syms[r.sym]? = some s → ¬ (s.2.sym.typ = .tls ∧ s.2.sym.bind = .loc)) →
      TargetArch .aarch64 a64RelocArch a64FieldSize 257 o
  | loongarch {o : ElfObj} : TargetArch .loongarch64 loongRelocArch loongFieldSize 2 o
  | riscv {peek : BitVec 64 → Option (BitVec 64)} {o : ElfObj} :
      (∀ i, o.isRela i → ∀ r ∈ o.rels i, ∀ s, o.syms[r.sym]? = some s → ¬ RvSlot r s.2.sym) →
      TargetArch .riscv64 (rvRelocArch peek) rvFieldSize 2 o

theorem TargetArch.facts {a : Arch} {ra : BitVec 64 → RelocArch} {w : Rela Nat → Nat} {abs : Nat} {o : ElfObj} (H : TargetArch a ra w abs o) :
    (∀ load sec e, LocalAct ((ra load).act sec e) w) ∧
    (∀ load i, o.isRela i → ∀ r ∈ o.rels i, ∀ p s, o.syms[r.sym]? = some p → p.2.sym.shndx = s.shndx →
      p.2.sym.typ = s.typ → p.2.sym.bind = s.bind → (ra load).Simple r s) ∧
    ∀ load, StoresAddress (ra load) abs := by
  cases H with
  | x86 =>
    refine ⟨fun load sec _ => (x86_local load sec).decode x86_fieldSize, ?_, x86_stores⟩
    exact fun load _ _ r _ _ s _ _ _ _ => x86_simple load r s
  | aarch64 htls =>
    refine ⟨fun load sec _ => (a64_local load sec).decode a64_fieldSize, ?_, a64_stores⟩
    intro load i hi r hr p s hp _ e2 e3
    have := htls i hi r hr p hp
    rw [e2, e3] at this
    exact a64_simple load r s this
  | loongarch =>
    refine ⟨fun load sec _ => (loong_local load sec).decode loong_fieldSize, ?_, loong_stores⟩
    exact fun load _ _ r _ _ s _ _ _ _ => loong_simple load r s
  | riscv hslot =>
    refine ⟨rv_localElf, ?_, rv_stores _⟩
    intro load i hi r hr p s hp e1 e2 e3
    have := hslot i hi r hr p hp
    unfold RvSlot at this
    rw [e1, e2] at this
    exact rv_simple _ load r s this

/-- `z` is one of the first bytes of a replaced function, where the jump is. -/
def PatchedEntry (a : Arch) (load : BitVec 64) (fns : List PatchFn) (z : Nat) : Prop :=
  ∃ f ∈ fns, ∃ d len, f.old = some (d, len) ∧ InRange z (d + load).toNat a.hunkSize

/-- The tool reads the memory of the process `size` bytes from `kpta` completely, and the threads it lets run until it is safe
leave it and the entries of the functions alone. -/
structure Unhindered (a : Arch) (e : UnapplyEnv) (kpta size : Nat) (load : BitVec 64) (fns : List PatchFn) : Prop where
  page : 48 ≤ e.page
  reads : ∀ k, ∃ lim, e.page ≤ lim ∧ e.reads k = .upTo lim
  fuel : fns.length < e.fuel
  addr : kpta + size + e.page < 2 ^ 64
  wait : ∀ m z, InRange z kpta size ∨ PatchedEntry a load fns z → (e.safety m).1 z = m z

/-- Nothing the removal asks the kernel for fails: the threads get to a safe place, the accesses to the memory of the process are
complete and the memory of the patch can be unmapped. -/
structure RemovalRuns (a : Arch) (e : UnapplyEnv) (m : Mem) : Prop where
  safe : (e.safety m).2 = true
  hunks : ∀ k, a.hunkSize ≤ (e.hunk k).rlim ∧ a.hunkSize ≤ (e.hunk k).wlim
  munmap : e.munmapOk = true

/-- The removal of a patch that is in place succeeds, if nothing it asks the kernel for fails. -/
theorem unapply_runs {a : Arch} {e : ApplyEnv} {ids : List (List Byte)} {file : List Byte}
    {m0 m2 : Mem} {v : ElfView} {kpta : Nat} {image : List Byte} {l : Layout} {eu : UnapplyEnv}
    (A : ApplyAssumptions a e file m0 v kpta image l)
    (happly : (objectApply a e ids file m0).2.2 = true)
    (hsame : UndisturbedSince a (objectApply a e ids file m0).1 m2 kpta l (parseInfos image v.infoOff v.ninfo))
    (U : UnapplyAssumptions a eu kpta l (parseInfos image v.infoOff v.ninfo))
    (hpage : e.page % 128 = 0) (hn : 0 < v.ninfo)
    (hdr : List Byte) (hlen : hdr.length = 504) (hhdr : Holds m2 kpta hdr) (R : RemovalRuns a eu m2) :
    (objectUnapply a eu false ⟨kpta, some hdr, none, true⟩ m2).2 = true := by
  have hfind := C48_records_read_back A happly hsame U hpage hn hdr hlen hhdr
  obtain ⟨P, -, -⟩ := objectApply_in_place A happly
  obtain ⟨f1, f2, f3, f4, f5, f6, f7⟩ := header_fields A
  have hil : (parseInfos image v.infoOff v.ninfo).length = v.ninfo := parseInfos_length _ _ _
  have P2 := undisturbed_in_place P hsame (by omega) (by omega) (by rw [hil]; exact f6)
  have heq : hdr = storeLayout (file.take hdrSize) l := hhdr.unique P2.header (by omega)
  subst heq
  have hr : (restoreHunks a eu.hunk false (kpta + l.userUndo) (eu.safety m2).1 0 (parseInfos image v.infoOff v.ninfo)).2 = true := by
    refine restore_runs R.hunks ?_ ?_
    · intro i hi ho k hk
      obtain ⟨code, c1, c2⟩ := P2.jumps i hi ho
      rw [U.wait _ _ (Or.inr ⟨i, hi, ho, by simp only [InRange]; omega⟩)]
      rw [c2 k (by rw [hunkCode_length _ _ _ _ c1]; exact hk)]
      simp
    · intro k hk
      rw [hil] at hk
      rw [Nat.zero_mul, Nat.add_zero, U.wait _ _ (Or.inl (by simp only [InRange]; omega))]
      have := P2.mapped (l.userUndo + k) (by omega)
      rwa [← Nat.add_assoc] at this
  unfold objectUnapply
  rw [hfind]
  dsimp only
  rw [f2, f3, R.safe, hr, R.munmap, show (l.totalMem == 0) = false from beq_false_of_ne (by omega)]
  rfl

/-- C86: a patch with the id `pid` was applied to a process by the patch command.  Then what it mapped is one piece of
memory (`size` bytes at `kpta`), and as long as the process changes neither this memory nor the entries of the replaced functions, the
following holds whenever the unpatch command is given this id and reports success.  It reports one patch; the entries of
the replaced functions are what they were before the patch; the memory of the patch is unmapped, as it was; and nothing else
was changed by the command.  And it does report success, if nothing it asks the kernel for fails.  Partial: see `TargetCase` and `UnpatchCase`: in particular ids have less than 8 bytes (see
C35), the first part of the memory of the patch is a mapping of its own, and no other patch has the id. -/
theorem C86_unpatch_partial {a : Arch} {ra : BitVec 64 → RelocArch} {w : Rela Nat → Nat} {abs : Nat} {T : TargetEnv} {text file : List Byte}
    {m1 m2 m' : Mem} {vs : List KVma} {pre : List (Obj × Option ElfImage)} {t : Obj} {x : ElfImage} {post : List (Obj × Option ElfImage)}
    {o : ElfObj} {n : Nat} {img : List Byte} {fns : List PatchFn} {k : Nat} {s pid : List Byte}
    (hA : TargetArch a ra w abs o)
    (C : TargetCase a w abs T text file m1 m2 vs pre t x post o n img fns)
    (hmagic : file.take 8 = kpatchMagic) (hid : StrAt file 8 pid) (hshort : pid.length < 8) (hs : StrAt file 88 s) (hne : fns ≠ [])
    (h : patchProcess a ra T text file m1 m2 = some (m', some k)) :
    ∃ kpta size, 0 < size ∧ (∀ z, InRange z kpta size ↔ ¬ Covered (mapBounds vs) z ∧ m' z ≠ none) ∧
      ∀ (T₂ : TargetEnv) (text₂ : List Byte) (m₃ : Mem) (vs₂ : List KVma) (pre₂ : List (Obj × Option ElfImage)) (t₂ : Obj) (x₂ : ElfImage)
        (post₂ : List (Obj × Option ElfImage)) (sel : List (List Byte)),
        UnpatchCase a T₂ text₂ m₃ vs₂ pre₂ t₂ x₂ post₂ s pid sel kpta →
        Unhindered a (T₂.undo pre₂.length) kpta size x.load fns →
        (∀ z, InRange z kpta size ∨ PatchedEntry a x.load fns z → m₃ z = m' z) →
        (∀ m₄ k₂, unpatchProcess a T₂ text₂ (some pid) sel m₃ = some (m₄, some k₂) →
          k₂ = 1 ∧ (∀ z, PatchedEntry a x.load fns z → m₄ z = m2 z) ∧ (∀ z, InRange z kpta size → m₄ z = none ∧ m2 z = none) ∧
          ∀ z, ¬ InRange z kpta size → ¬ PatchedEntry a x.load fns z → m₄ z = ((T₂.undo pre₂.length).safety m₃).1 z) ∧
        (RemovalRuns a (T₂.undo pre₂.length) m₃ → ∃ m₄, unpatchProcess a T₂ text₂ (some pid) sel m₃ = some (m₄, some 1)) := by
  obtain ⟨f1, f2, f3⟩ := hA.facts
  obtain ⟨-, pe, e, ids, kpta, v, image, l, h1, LC, h3, h4, -, hpage, hsafe, -, hsize, hcov, hpar⟩ := patch_process C f1 f2 f3 h
  have hentry : ∀ z, IsEntryByte a (parseInfos image v.infoOff v.ninfo) z ↔ PatchedEntry a x.load fns z := by
    intro z
    rw [hpar, h1]
    constructor
    · rintro ⟨i, hi, ho, hr⟩
      obtain ⟨f, hf, rfl⟩ := List.mem_map.1 hi
      cases hx : f.old with
      | none => exact absurd ⟨by simp [PatchFn.info, hx], by simp [PatchFn.info, hx]⟩ ho
      | some q =>
        refine ⟨f, hf, q.1, q.2, hx, ?_⟩
        simpa [PatchFn.info, hx] using hr
    · rintro ⟨f, hf, d, len, hx, hr⟩
      refine ⟨_, List.mem_map.2 ⟨f, hf, rfl⟩, ?_, by simpa [PatchFn.info, hx] using hr⟩
      intro hc
      have hc := hc.2
      simp only [PatchFn.info, hx] at hc
      have := (C.funcs.long f hf d len hx).1
      have : 0 < a.hunkSize := by cases a <;> decide
      omega
  have hn : v.ninfo = fns.length := by
    have := congrArg List.length hpar
    rwa [parseInfos_length, List.length_map] at this
  obtain ⟨P, -, mw, mw1, mw2⟩ := objectApply_in_place LC.apply h3
  obtain ⟨-, -, g3, g4, g5, g6, g7⟩ := header_fields LC.apply
  refine ⟨kpta, l.totalMem, by omega, fun z => ⟨fun hz => ⟨hcov z hz, ?_⟩, ?_⟩, ?_⟩
  rotate_left
  · rintro ⟨hz1, hz2⟩
    by_contra hr
    have hne : ¬ PatchedEntry a x.load fns z := by
      rintro ⟨f, hf, d, len, hx, hz⟩
      obtain ⟨b1, b2⟩ := C.funcs.long f hf d len hx
      simp only [InRange] at hz
      have := b2 (z - (d + x.load).toNat) (by omega)
      rw [show (d + x.load).toNat + (z - (d + x.load).toNat) = z by omega] at this
      exact hz1 (C.quiet z this)
    have e1 := mw2 z hr (fun hc => hne ((hentry z).1 hc))
    have e2 : (objectApplyFile a (ra pe.load) pe e ids file m2).1 z = m' z := by rw [h4]
    have e3 : (e.safety mw).1 z = mw z := by
      rw [hsafe]
      exact C.wait _ _ _ (Or.inr hz1)
    have e4 : m' z = m2 z := e2.symm.trans (e1.trans (e3.trans (mw1 z hr)))
    rw [e4] at hz2
    exact hz1 (C.quiet z hz2)
  rotate_left
  · rw [← h4]
    have := P.mapped (z - kpta) (by simp only [InRange] at hz; omega)
    simp only [InRange] at hz
    rwa [show kpta + (z - kpta) = z by omega] at this
  intro T₂ text₂ m₃ vs₂ pre₂ t₂ x₂ post₂ sel U N hsame
  have hundist : UndisturbedSince a (objectApplyFile a (ra pe.load) pe e ids file m2).1 m₃ kpta l (parseInfos image v.infoOff v.ninfo) := by
    intro z hz
    rw [hentry] at hz
    rw [h4]
    exact hsame z hz
  have hsl : s.length = 40 := by
    obtain ⟨id, u1, u2, -⟩ := U.id
    obtain ⟨v, segs, _, _, _, _, _, b4, _, b6⟩ := u2
    rw [u1.1]
    unfold buildIdOf at b6
    rw [Option.map_eq_some_iff] at b6
    · obtain ⟨nt, hf, b6⟩ := b6
      have h1 := List.find?_some hf
      have h2 := List.mem_of_find?_eq_some hf
      obtain ⟨sg, h3, h4⟩ := List.mem_flatMap.1 h2
      cases sg with
      | notes off ns =>
        rw [← b6, b4 off ns h3 nt h4 (by simpa using h1)]
      | other _ _ => simp at h4
  have hil : (parseInfos image v.infoOff v.ninfo).length = v.ninfo := parseInfos_length _ _ _
  have P2 := undisturbed_in_place P hundist (by omega) (by omega) (by rw [hil]; exact g6)
  have hpg := C.page
  have hbig : 1024 ≤ l.totalMem := by
    have hd : T.page ∣ l.totalMem := by
      rw [hsize]
      unfold patchMemSize
      split
      · exact Nat.dvd_zero _
      · exact Nat.dvd_of_mod_eq_zero (roundUp_mod _ _)
    have := Nat.le_of_dvd (by omega) hd
    omega
  have hmap : Mapped m₃ kpta 1024 := fun k hk => P2.mapped k (by omega)
  have hhdr := patch_header (l := l) C.patch.header hmagic hid hshort hs (by omega)
  have he := unpatch_once U hhdr P2.header hmap
  have UA : UnapplyAssumptions a (T₂.undo pre₂.length) kpta l (parseInfos image v.infoOff v.ninfo) := {
    page := N.page
    reads := N.reads
    fuel := by rw [hil, hn]; exact N.fuel
    addr := N.addr
    wait := by
      intro mm z hz
      rw [hentry] at hz
      exact N.wait mm z hz }
  have h128 : e.page % 128 = 0 := by
    rw [hpage]
    obtain ⟨i, hi, hp⟩ := (Nat.dvd_prime_pow Nat.prime_two).1 (show T.page ∣ 2 ^ 27 from hpg.2)
    rw [hp]
    have h2 : 7 ≤ i := by
      rcases Nat.lt_or_ge i 7 with h | h
      · have : 2 ^ i ≤ 2 ^ 7 := Nat.pow_le_pow_right (by omega) (by omega)
        omega
      · exact h
    exact Nat.mod_eq_zero_of_dvd (Nat.pow_dvd_pow 2 h2)
  have hn0 : 0 < v.ninfo := by
    rw [hn]
    exact List.length_pos_iff.2 hne
  rw [he]
  dsimp only
  constructor
  · intro m₄ k₂ hun
    rw [Option.some.injEq, Prod.mk.injEq] at hun
    obtain ⟨e1, e2⟩ := hun
    have hok : (objectUnapply a (T₂.undo pre₂.length) false ⟨kpta, some (storeLayout (file.take hdrSize) l), none, true⟩ m₃).2 = true := by
      cases hx : (objectUnapply a (T₂.undo pre₂.length) false ⟨kpta, some (storeLayout (file.take hdrSize) l), none, true⟩ m₃).2 with
      | true => rfl
      | false => rw [hx] at e2; simp at e2
    rw [hok] at e2
    obtain ⟨r1, r2, r3⟩ := C01_unpatch_restores LC.apply h3 hundist UA h128 hn0 _ g4 P2.header hok
    rw [e1] at r1 r2 r3
    refine ⟨by simpa using e2.symm, fun z hz => r1 z ((hentry z).2 hz), r2, fun z h1 h2 => r3 z h1 (fun hc => h2 ((hentry z).1 hc))⟩
  · intro R
    rw [unapply_runs LC.apply h3 hundist UA h128 hn0 _ g4 P2.header R]
    exact ⟨_, rfl⟩

end Verif
