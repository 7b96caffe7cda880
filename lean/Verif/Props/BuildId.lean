import Verif.Proof.BuildId
/-
C71: the build id that selects the patch is that of the mapped file.
-/
namespace Verif

/-- **C71 (partial).**  For every mapped file whose notes need no filling up (apart from the build id itself),
with build ids of twenty bytes and none in a segment of more than 128 bytes: the build id found is the lower-case
hexadecimal writing of the file's build id, and none is found if the file has none.  Missing: notes that need
filling up, long segments, build ids of other lengths; see the violations below. -/
theorem C71_found_partial {lim : Nat} {m : Mem} {vma : Nat} (hlim : 128 ≤ lim) (segs : List PSeg)
    (hload : ∀ s ∈ segs, s.Loaded m vma 128)
    (hfits : ∀ off ns, PSeg.notes off ns ∈ segs → ∀ n ∈ ns, n.Fits)
    (hpad : ∀ off ns, PSeg.notes off ns ∈ segs → ∀ n ∈ ns, n.Unpadded ∨ n.IsBuildId)
    (h20 : ∀ off ns, PSeg.notes off ns ∈ segs → ∀ n ∈ ns, n.IsBuildId → n.desc.length = 20)
    (hlong : ∀ off ns, PSeg.notes off ns ∈ segs → 128 < (notesEncoded ns).length → ∀ n ∈ ns, ¬ n.IsBuildId) :
    (∀ id, buildIdOf segs = some id → ∃ s, lookBuildid lim m vma (segs.map PSeg.header) = some s ∧ IsHexOf s id) ∧
    (buildIdOf segs = none → lookBuildid lim m vma (segs.map PSeg.header) = none) := by
  induction segs with
  | nil => exact ⟨fun id h => by simp [buildIdOf] at h, fun _ => rfl⟩
  | cons s segs ih =>
    have ih := ih (fun x hx => hload x (by simp [hx])) (fun o ns hx => hfits o ns (by simp [hx]))
      (fun o ns hx => hpad o ns (by simp [hx])) (fun o ns hx => h20 o ns (by simp [hx]))
      (fun o ns hx => hlong o ns (by simp [hx]))
    cases s with
    | other off sz => simpa [buildIdOf, PSeg.header, lookBuildid] using ih
    | notes off ns =>
      have hb : buildIdOf (.notes off ns :: segs) =
          ((ns.find? (fun n => decide n.IsBuildId)).map Note.desc).or (buildIdOf segs) := by
        unfold buildIdOf
        rw [List.flatMap_cons, List.find?_append]
        cases ns.find? (fun n => decide n.IsBuildId) <;> simp
      rw [hb, List.map_cons, PSeg.header]
      simp only [lookBuildid, Bool.not_true, Bool.false_eq_true, if_false]
      by_cases hl : (notesEncoded ns).length > noteBuf
      · rw [if_pos hl]
        have : ns.find? (fun n => decide n.IsBuildId) = none := by
          rw [List.find?_eq_none]
          intro n hn
          simpa using hlong off ns (by simp) hl n hn
        rw [this]
        simpa using ih
      · rw [if_neg hl]
        obtain ⟨hh, hm⟩ := hload (.notes off ns) (by simp)
        obtain ⟨r, hr, h1, h2⟩ := noteSearch_spec hlim ns off (off + (notesEncoded ns).length) rfl (by omega) hh hm
          (hfits off ns (by simp)) (hpad off ns (by simp)) (h20 off ns (by simp))
        rw [hr]
        cases hfd : ns.find? (fun n => decide n.IsBuildId) with
        | none =>
          rw [h1 hfd]
          simpa using ih
        | some n =>
          obtain ⟨buf, rfl, hd⟩ := h2 n hfd
          simp only [Option.map_some, Option.some_or, Option.some.injEq, reduceCtorEq, false_implies, and_true]
          rintro id rfl
          exact ⟨_, rfl, hd ▸ hexBytes_isHex _⟩

/-- Different build ids of the same length have different hexadecimal writings: a patch for one is never taken
for the other. -/
theorem C71_distinct {s : List Byte} {a b : List Byte} (ha : IsHexOf s a) (hb : IsHexOf s b) : a = b := by
  have hl : a.length = b.length := by have := ha.1; have := hb.1; omega
  have inj : ∀ x y : Fin 16, hexAlphabet[x.val]? = hexAlphabet[y.val]? → x = y := by decide +kernel
  apply List.ext_getElem hl
  intro k h1 h2
  obtain ⟨p1, p2⟩ := ha.2 k h1
  obtain ⟨q1, q2⟩ := hb.2 k h2
  have l1 := a[k].isLt
  have l2 := b[k].isLt
  have e1 := inj ⟨a[k].toNat / 16, by omega⟩ ⟨b[k].toNat / 16, by omega⟩ (p1.symm.trans q1)
  have e2 := inj ⟨a[k].toNat % 16, by omega⟩ ⟨b[k].toNat % 16, by omega⟩ (p2.symm.trans q2)
  simp only [Fin.mk.injEq] at e1 e2
  apply BitVec.eq_of_toNat_eq
  omega

/-- Whatever the file and however its notes are laid out, a build id that is found is the writing of twenty bytes
of the memory of the process that directly follow the header and the name of a GNU build id note. -/
theorem C71_sound {lim : Nat} {m : Mem} {vma : Nat} {ps : List NPhdr} {s : List Byte}
    (h : lookBuildid lim m vma ps = some s) :
    ∃ a dsz id, id.length = 20 ∧ IsHexOf s id ∧
      Holds m a (leBytes 4 4 ++ dsz ++ leBytes 4 3 ++ lit "GNU" ++ [0] ++ id) ∧ dsz.length = 4 ∧
      ∃ p ∈ ps, p.isNote = true ∧ p.memsz ≤ 128 ∧ vma + p.offset ≤ a ∧ a < vma + p.offset + p.memsz := by
  induction ps with
  | nil => simp [lookBuildid] at h
  | cons p ps ih =>
    have up : lookBuildid lim m vma ps = some s →
        ∃ a dsz id, id.length = 20 ∧ IsHexOf s id ∧
          Holds m a (leBytes 4 4 ++ dsz ++ leBytes 4 3 ++ lit "GNU" ++ [0] ++ id) ∧ dsz.length = 4 ∧
          ∃ q ∈ p :: ps, q.isNote = true ∧ q.memsz ≤ 128 ∧ vma + q.offset ≤ a ∧ a < vma + q.offset + q.memsz := by
      intro h
      obtain ⟨a, dsz, id, h1, h2, h3, h4, q, hq, h5⟩ := ih h
      exact ⟨a, dsz, id, h1, h2, h3, h4, q, by simp [hq], h5⟩
    unfold lookBuildid at h
    split at h
    · exact up h
    · rename_i hn
      split at h
      · exact up h
      · rename_i hl
        split at h
        · contradiction
        · exact up h
        · rename_i buf hs
          injection h with h
          obtain ⟨o, ho1, ho2, hr, hi⟩ := noteSearch_found _ _ _ _ _ _ hs
          obtain ⟨hlen, hh⟩ := memRead_ok _ _ _ _ _ hr
          obtain ⟨dsz, id, tl, hd, hid, e, hid2⟩ := buildid_bytes hlen hi
          refine ⟨vma + o, dsz, id, hid, ?_, ?_, hd, p, by simp, by simpa using hn, by simpa [noteBuf] using hl,
            by omega, by omega⟩
          · rw [← h, hid2]; exact hexBytes_isHex id
          · rw [e] at hh; exact hh.left

namespace ExBid

/-- Memory with the given bytes from `0x400000` on and zeros behind them to the end of the page. -/
def mem (bs : List Byte) : Mem := fun x =>
  if 0x400000 ≤ x ∧ x < 0x401000 then some (bs.getD (x - 0x400000) 0) else none

theorem mem_mapped (bs : List Byte) (off n : Nat) (h : off + n ≤ 0x1000) : Mapped (mem bs) (0x400000 + off) n := by
  intro k hk
  unfold mem
  rw [if_pos (by omega)]
  simp

theorem mem_holds (pre bs : List Byte) (off : Nat) (ho : pre.length = off) (h : off + bs.length ≤ 0x1000) :
    Holds (mem (pre ++ bs)) (0x400000 + off) bs := by
  intro k hk
  unfold mem
  rw [if_pos (by omega)]
  congr 1
  rw [List.getD_eq_getElem?_getD, show 0x400000 + off + k - 0x400000 = off + k by omega,
    List.getElem?_append_right (by omega), ho, show off + k - off = k by omega, List.getElem?_eq_getElem hk]
  rfl

/-- Twenty different bytes. -/
def id20 : List Byte := (List.range 20).map fun k => BitVec.ofNat 8 (0xa0 + k)
/-- The note of the ABI. -/
def abi : Note := ⟨lit "GNU" ++ [0], List.replicate 16 1, 1⟩
/-- A build id. -/
def bid : Note := ⟨lit "GNU" ++ [0], id20, 3⟩
/-- The note with which distributions describe the package, of eighteen bytes. -/
def pkg : Note := ⟨lit "FDO" ++ [0], List.replicate 18 0x7b, 0xcafe1a7e⟩
/-- A long note. -/
def long : Note := ⟨lit "GNU" ++ [0], List.replicate 96 2, 5⟩
/-- A build id made of an MD5 sum. -/
def bid16 : Note := ⟨lit "GNU" ++ [0], id20.take 16, 3⟩

/-- A file with a segment of code, a long segment without build id and one with the note of the ABI and the build
id. -/
def segs : List PSeg := [.other 0 0x1000, .notes 0x100 [abi, long], .notes 0x200 [abi, bid]]
/-- Its beginning in memory. -/
def img : List Byte :=
  List.replicate 0x100 0 ++ notesEncoded [abi, long] ++ List.replicate (0x100 - (notesEncoded [abi, long]).length) 0

/-- The hypotheses of `C71_found_partial` are met by a file with a build id. -/
example : ∃ s, lookBuildid 4096 (mem (img ++ notesEncoded [abi, bid])) 0x400000 (segs.map PSeg.header) = some s ∧
    IsHexOf s id20 := by
  refine (C71_found_partial (by decide) segs ?_ ?_ ?_ ?_ ?_).1 id20 (by decide +kernel)
  · intro s hs
    simp only [segs, List.mem_cons, List.not_mem_nil, or_false] at hs
    rcases hs with rfl | rfl | rfl
    · trivial
    · refine ⟨?_, mem_mapped _ _ _ (by decide +kernel)⟩
      have : img ++ notesEncoded [abi, bid] = List.replicate 0x100 0 ++ (notesEncoded [abi, long] ++
        (List.replicate (0x100 - (notesEncoded [abi, long]).length) 0 ++ notesEncoded [abi, bid])) := by
        simp only [img, List.append_assoc]
      rw [this]
      exact (mem_holds _ _ 0x100 (by decide +kernel) (by decide +kernel)).left
    · exact ⟨mem_holds _ _ 0x200 (by decide +kernel) (by decide +kernel), mem_mapped _ _ _ (by decide +kernel)⟩
  all_goals
    intro off ns hm
    simp only [segs, List.mem_cons, List.not_mem_nil, or_false, PSeg.notes.injEq, reduceCtorEq, false_or] at hm
    rcases hm with ⟨rfl, rfl⟩ | ⟨rfl, rfl⟩
    all_goals decide +kernel

end ExBid

/-- **C71 violated: notes that need filling up.**  The code does not skip the bytes with which a note is filled up
to a multiple of four: the build id of this well-formed file, which stands behind a note of the package, is not
found. -/
theorem C71_violated_padding : ∃ (m : Mem) (segs : List PSeg), (∀ s ∈ segs, s.Loaded m 0x400000 128) ∧
    (∀ off ns, PSeg.notes off ns ∈ segs → (notesEncoded ns).length ≤ 128 ∧ ∀ n ∈ ns, n.Fits) ∧
    buildIdOf segs = some ExBid.id20 ∧ lookBuildid 4096 m 0x400000 (segs.map PSeg.header) = none := by
  refine ⟨ExBid.mem ([] ++ notesEncoded [ExBid.pkg, ExBid.bid]), [.notes 0 [ExBid.pkg, ExBid.bid]], ?_, ?_,
    by decide +kernel, ?_⟩
  · intro s hs
    simp only [List.mem_cons, List.not_mem_nil, or_false] at hs
    subst hs
    exact ⟨ExBid.mem_holds _ _ 0 rfl (by decide +kernel), ExBid.mem_mapped _ _ _ (by decide +kernel)⟩
  · intro off ns hm
    simp only [List.mem_cons, List.not_mem_nil, or_false, PSeg.notes.injEq] at hm
    obtain ⟨rfl, rfl⟩ := hm
    decide +kernel
  · have hr : ∃ buf, memRead 4096 (ExBid.mem ([] ++ notesEncoded [ExBid.pkg, ExBid.bid])) (0x400000 + 0) noteBuf =
        some buf ∧ noteIsBuildid buf = false ∧ noteStep buf = 34 := by
      refine ⟨(pread 4096 (ExBid.mem ([] ++ notesEncoded [ExBid.pkg, ExBid.bid])) (0x400000 + 0) noteBuf), ?_, ?_, ?_⟩
      all_goals decide +kernel
    have hr2 : ∃ buf, memRead 4096 (ExBid.mem ([] ++ notesEncoded [ExBid.pkg, ExBid.bid])) (0x400000 + (0 + 34)) noteBuf =
        some buf ∧ noteIsBuildid buf = false ∧ 100 ≤ noteStep buf := by
      refine ⟨(pread 4096 (ExBid.mem ([] ++ notesEncoded [ExBid.pkg, ExBid.bid])) (0x400000 + (0 + 34)) noteBuf), ?_, ?_, ?_⟩
      all_goals decide +kernel
    obtain ⟨b1, h1, h2, h3⟩ := hr
    obtain ⟨b2, g1, g2, g3⟩ := hr2
    have hL : (notesEncoded [ExBid.pkg, ExBid.bid]).length = 72 := by decide +kernel
    simp only [List.map_cons, List.map_nil, PSeg.header, lookBuildid, hL, Bool.not_true, Bool.false_eq_true, if_false,
      noteBuf, show ¬ (72 > 128) by decide, show ¬ (32 > 128) by decide]
    rw [noteSearch, if_pos (by decide)]
    simp only [h1, h2, h3, Bool.false_eq_true, if_false]
    rw [noteSearch, if_pos (by decide)]
    simp only [g1, g2, Bool.false_eq_true, if_false]
    rw [noteSearch, if_neg (by omega)]

/-- **C71 violated: long segments.**  A segment of more than 128 bytes is not searched: the build id of this file,
all of whose notes need no filling up, is not found. -/
theorem C71_violated_long : ∃ (m : Mem) (segs : List PSeg), (∀ s ∈ segs, s.Loaded m 0x400000 128) ∧
    (∀ off ns, PSeg.notes off ns ∈ segs → ∀ n ∈ ns, n.Fits ∧ n.Unpadded) ∧
    buildIdOf segs = some ExBid.id20 ∧ lookBuildid 4096 m 0x400000 (segs.map PSeg.header) = none := by
  refine ⟨ExBid.mem ([] ++ notesEncoded [ExBid.long, ExBid.bid]), [.notes 0 [ExBid.long, ExBid.bid]], ?_, ?_,
    by decide +kernel, ?_⟩
  · intro s hs
    simp only [List.mem_cons, List.not_mem_nil, or_false] at hs
    subst hs
    exact ⟨ExBid.mem_holds _ _ 0 rfl (by decide +kernel), ExBid.mem_mapped _ _ _ (by decide +kernel)⟩
  · intro off ns hm
    simp only [List.mem_cons, List.not_mem_nil, or_false, PSeg.notes.injEq] at hm
    obtain ⟨rfl, rfl⟩ := hm
    decide +kernel
  · have hL : (notesEncoded [ExBid.long, ExBid.bid]).length = 148 := by decide +kernel
    simp [PSeg.header, lookBuildid, hL, noteBuf]

/-- **C71 violated: build ids of other lengths.**  The length of the build id is ignored and twenty bytes are taken:
for a file with a build id of sixteen bytes the result also contains the four bytes that happen to follow it, and
two mappings of files with the same build id have different results. -/
theorem C71_violated_length : ∃ (m m' : Mem) (segs : List PSeg),
    (∀ s ∈ segs, s.Loaded m 0x400000 128) ∧ (∀ s ∈ segs, s.Loaded m' 0x400000 128) ∧
    (∀ off ns, PSeg.notes off ns ∈ segs → (notesEncoded ns).length ≤ 128 ∧ ∀ n ∈ ns, n.Fits ∧ n.Unpadded) ∧
    (buildIdOf segs).isSome ∧
    ∃ s s', lookBuildid 4096 m 0x400000 (segs.map PSeg.header) = some s ∧
      lookBuildid 4096 m' 0x400000 (segs.map PSeg.header) = some s' ∧ s ≠ s' := by
  have key : ∀ (tl : List Byte), ([] ++ notesEncoded [ExBid.bid16] ++ tl).length ≤ 0x100 →
      ∀ s ∈ [PSeg.notes 0 [ExBid.bid16]], s.Loaded (ExBid.mem ([] ++ notesEncoded [ExBid.bid16] ++ tl)) 0x400000 128 := by
    intro tl ht s hs
    simp only [List.mem_cons, List.not_mem_nil, or_false] at hs
    subst hs
    refine ⟨?_, ExBid.mem_mapped _ _ _ (by decide +kernel)⟩
    rw [List.append_assoc]
    refine (ExBid.mem_holds _ _ 0 rfl ?_).left
    simp at ht ⊢
    omega
  have run : ∀ (tl : List Byte) (b : List Byte),
      pread 4096 (ExBid.mem ([] ++ notesEncoded [ExBid.bid16] ++ tl)) (0x400000 + 0) noteBuf = b →
      b.length = noteBuf → noteIsBuildid b = true →
      lookBuildid 4096 (ExBid.mem ([] ++ notesEncoded [ExBid.bid16] ++ tl)) 0x400000
        ([PSeg.notes 0 [ExBid.bid16]].map PSeg.header) =
        some (hexBytes (((b.drop 12).drop (noteNamesz b)).take 20)) := by
    intro tl b hb hl hi
    have hL : (notesEncoded [ExBid.bid16]).length = 32 := by decide +kernel
    have hr : memRead 4096 (ExBid.mem ([] ++ notesEncoded [ExBid.bid16] ++ tl)) (0x400000 + 0) noteBuf = some b := by
      unfold memRead
      rw [hb]
      simp [hl]
    simp only [List.map_cons, List.map_nil, PSeg.header, lookBuildid, hL, Bool.not_true, Bool.false_eq_true, if_false,
      noteBuf, show ¬ (72 > 128) by decide, show ¬ (32 > 128) by decide]
    rw [noteSearch, if_pos (by decide), hr]
    simp only [hi, if_true]
  refine ⟨_, _, [.notes 0 [ExBid.bid16]], key [] (by decide +kernel), key [1] (by decide +kernel), ?_,
    by decide +kernel, _, _, run [] _ rfl (by decide +kernel) (by decide +kernel),
    run [1] _ rfl (by decide +kernel) (by decide +kernel), by decide +kernel⟩
  intro off ns hm
  simp only [List.mem_cons, List.not_mem_nil, or_false, PSeg.notes.injEq] at hm
  obtain ⟨rfl, rfl⟩ := hm
  decide +kernel

/-- A build id is found in a real layout, so that the conclusion of `C71_sound` and of `C71_distinct` is about
something: the example above gives such a result. -/
example : IsHexOf (lit "a0a1ff") [0xa0, 0xa1, 0xff] := by
  refine ⟨by decide +kernel, ?_⟩
  intro k hk
  have : k = 0 ∨ k = 1 ∨ k = 2 := by simp at hk; omega
  rcases this with rfl | rfl | rfl <;> decide +kernel +revert

end Verif
