import Verif.Proof.Holes
/-
C09, C10, C11, C12, C13: finding memory for patches.
-/
namespace Verif

/-- C12.  For every memory map the gaps are non-empty, sorted, pairwise disjoint, and each is at least a
page away from every mapping; conversely every address below the last mapping that is at least a
page above address 0 and more than a page away from every mapping lies in a gap. -/
theorem C12_gaps_exact (page : Nat) (hp : 0 < page) (maps : List (Nat × Nat)) (M : MapOk page maps) :
    let holes := parseHoles page 0 0 maps
    (∀ h ∈ holes, h.start < h.stop) ∧
    holes.Pairwise (fun h k => h.stop + page ≤ k.start) ∧
    (∀ h ∈ holes, ∀ r ∈ maps, Apart page h.start h.stop r.1 r.2) ∧
    (∀ h ∈ holes, ∀ x, h.start ≤ x → x < h.stop → ¬ Covered maps x) ∧
    (∀ x, page ≤ x → (∃ r ∈ maps, x < r.1) → (∀ r ∈ maps, x + page < r.1 ∨ r.2 + page ≤ x) →
      ∃ h ∈ holes, h.start ≤ x ∧ x < h.stop) := by
  obtain ⟨H, H2, H3, H4⟩ := parseHoles_bounds page hp maps 0 0 M (Nat.dvd_zero _) (fun r _ => Nat.zero_le _)
  refine ⟨fun h hh => (H2 h hh).2.1, ?_, fun h hh r hr => H.apart h hh (H2 h hh).2.1 r hr, ?_, ?_⟩
  · refine H.sorted.imp_of_mem fun {h k} hh hk hle => ?_
    rwa [guardEnd_pos (H2 h hh).2.1] at hle
  · intro h hh x hx1 hx2 ⟨r, hr, hr1, hr2⟩
    have := H.apart h hh (H2 h hh).2.1 r hr
    unfold Apart at this
    omega
  · intro x hx hex hfar
    exact H4 x (Nat.zero_le _) hfar (by omega) hex

theorem previousHole_some {l : List (Option Nat)} {p : Nat} (h : previousHole l = some p) : some p ∈ l := by
  induction l with
  | nil => simp [previousHole] at h
  | cons o l ih =>
    cases o with
    | none => simp only [previousHole] at h; exact List.mem_cons_of_mem _ (ih h)
    | some q => simp only [previousHole, Option.some.injEq] at h; subst h; simp

/-- Every object read from the memory map is positioned as the search expects. -/
theorem objectOfLines_ok {page : Nat} (hp : 0 < page) {maps : List (Nat × Nat)} (M : MapOk page maps)
    {idx : List Nat} {os oe prev : Nat} (L : ObjectOfLines page maps idx os oe prev) :
    ObjectOk page os oe prev (parseHoles page 0 0 maps) := by
  obtain ⟨i, hi, hos⟩ := L.first
  obtain ⟨k, hk, hoe⟩ := L.last
  obtain ⟨t, rfl⟩ : ∃ t, idx = i :: t := by
    cases idx with
    | nil => simp at hi
    | cons a t => simp at hi; exact ⟨t, by rw [hi]⟩
  have hib := L.bounds i (by simp)
  have hkm : k ∈ i :: t := List.mem_of_getLast? hk
  have hkb := L.bounds k hkm
  obtain ⟨j, hjm, hjh⟩ := List.mem_map.mp (previousHole_some L.hole)
  have hjb := L.bounds j hjm
  have hij : i ≤ j := by
    rcases List.mem_cons.mp hjm with rfl | h
    · omega
    · exact Nat.le_of_lt ((List.pairwise_cons.mp L.ordered).1 j h)
  have hjk : j ≤ k := by
    obtain ⟨d, hd⟩ := List.getLast?_eq_some_iff.mp hk
    have ho := L.ordered
    rw [hd] at ho hjm
    rcases List.mem_append.mp hjm with h | h
    · exact Nat.le_of_lt ((List.pairwise_append.mp ho).2.2 j h k (by simp))
    · simp at h; omega
  rw [List.getElem?_eq_getElem hib] at hos
  rw [List.getElem?_eq_getElem hkb] at hoe
  simp only [Option.map_some, Option.some.injEq] at hos hoe
  have hsrt := List.pairwise_iff_getElem.mp M.sorted
  have hne := fun (n : Nat) (h : n < maps.length) => M.nonempty maps[n] (List.getElem_mem h)
  have hij' : maps[i].1 ≤ maps[j].1 := by
    rcases Nat.lt_or_eq_of_le hij with h | h
    · have := hsrt i j hib hjb h
      have := hne i hib
      omega
    · subst h; omega
  have hjk' : maps[j].1 ≤ maps[k].2 := by
    rcases Nat.lt_or_eq_of_le hjk with h | h
    · have := hsrt j k hjb hkb h
      have := hne j hjb
      have := hne k hkb
      omega
    · subst h
      have := hne j hjb
      omega
  have hjj : (lineHoles page 0 0 (([] : List Hole).getLast?.map Hole.id) maps)[j]? = some (some prev) := by
    have hlt : j < (lineHoles page 0 0 none maps).length := by rw [lineHoles_length]; exact hjb
    simp only [List.getLast?_nil, Option.map_none]
    rw [List.getElem?_eq_getElem hlt] at hjh ⊢
    simpa using hjh
  obtain ⟨pre, h, post, heq, hid, h1, h2⟩ := lineHoles_spec page hp maps 0 0 [] M (Nat.dvd_zero _)
    (fun r _ => Nat.zero_le _) (by simp) j hjb prev hjj
  have hbound := M.bound maps[k] (List.getElem_mem hkb)
  refine ⟨by omega, by omega, pre, h, post, by simpa using heq, hid, ?_, ?_⟩
  · intro q hq
    have := h1 q hq; omega
  · intro q hq
    have := h2 q hq; omega

/-- Page sizes of the supported architectures divide the search windows. -/
theorem page_dvd_maxDistance (a : Arch) (page : Nat) (h : page ∣ 0x8000000) : page ∣ a.maxDistance := by
  have h2 : 0x8000000 ∣ a.maxDistance := by cases a <;> decide
  exact Nat.dvd_trans h h2

/-- C09, partial: for every memory map, every object in it and every patch size, the region chosen for the
patch is page aligned, and is at least a page away from every mapping (so `MAP_FIXED` destroys
nothing), provided no gap below the object ends in the boundary band of the search window
(`NoBoundaryHole`; without it the claim is false, see `C09_violated_far_left_gap`). -/
theorem C09_region_is_unmapped_partial (a : Arch) (page memsize : Nat) (hp : 0 < page) (hpd : page ∣ 0x8000000)
    (hpm : page ∣ memsize) (hm : memsize ≤ a.maxDistance) (hm0 : 0 < memsize)
    (maps : List (Nat × Nat)) (M : MapOk page maps)
    (idx : List Nat) (os oe prev : Nat) (L : ObjectOfLines page maps idx os oe prev)
    (hb : NoBoundaryHole a.maxDistance memsize oe (parseHoles page 0 0 maps))
    (h : Hole) (addr : Nat)
    (hf : findRegion a page memsize os oe (some prev) (parseHoles page 0 0 maps) = some (h, addr)) :
    page ∣ addr ∧ page ≤ addr ∧ (∀ r ∈ maps, Apart page addr (addr + memsize) r.1 r.2) ∧
    (∀ x, addr ≤ x → x < addr + memsize → ¬ Covered maps x) := by
  obtain ⟨H, H2, H3, H4⟩ := parseHoles_bounds page hp maps 0 0 M (Nat.dvd_zero _) (fun r _ => Nat.zero_le _)
  have hnd : IdsNodup (parseHoles page 0 0 maps) := H3.imp fun hlt => Nat.ne_of_lt hlt
  have hoe : page ∣ oe := by
    obtain ⟨k, hk, hoe⟩ := L.last
    have hkb := L.bounds k (List.mem_of_getLast? hk)
    rw [List.getElem?_eq_getElem hkb] at hoe
    simp only [Option.map_some, Option.some.injEq] at hoe
    rw [← hoe]
    exact (M.aligned _ (List.getElem_mem hkb)).2
  obtain ⟨f1, f2, f3, f4, f5, f6⟩ := findRegion_spec hp (page_dvd_maxDistance a page hpd) hpm hoe hm H hnd
    (objectOfLines_ok hp M L) hb hf
  have hap : ∀ r ∈ maps, Apart page addr (addr + memsize) r.1 r.2 := by
    intro r hr
    have := H.apart h f1 f5 r hr
    unfold Apart at *; omega
  refine ⟨f2, ?_, hap, ?_⟩
  · have := (H.order h f1).1; omega
  · intro x hx1 hx2 ⟨r, hr, hr1, hr2⟩
    have := hap r hr
    unfold Apart at this
    omega

/-- The bytes of an object. -/
def InObject (os oe x : Nat) : Prop := os ≤ x ∧ x < oe

/-- The displacements (replacement minus entry) that the entry jump of the architecture can encode: x86-64
`jmp rel32` (relative to the end of the 5-byte instruction), AArch64 `b` and LoongArch `b` (26-bit word
offset), RISC-V `auipc`+`jalr` (which could go 2 KiB further back). -/
def JumpReach : Arch → Int → Prop
  | .x86, d => -(2 ^ 31) ≤ d - 5 ∧ d - 5 < 2 ^ 31
  | .aarch64, d => -(2 ^ 27) ≤ d ∧ d < 2 ^ 27
  | .loongarch64, d => -(2 ^ 27) ≤ d ∧ d < 2 ^ 27
  | .riscv64, d => -(2 ^ 31) ≤ d ∧ d < 2 ^ 31 - 2 ^ 11

/-- C10, partial: on x86-64, AArch64 and RISC-V, for every memory map, object and patch size (the object and
twice the patch not larger than the search window), the jump placed at any function of the object
reaches every address of the region chosen for the patch.  On LoongArch the claim is false
(`C10_violated_loongarch`); the jump is then refused (C06). -/
theorem C10_region_within_reach_partial (a : Arch) (ha : a ≠ .loongarch64) (page memsize : Nat)
    (hp : 4096 ≤ page) (hpd : page ∣ 0x8000000)
    (hpm : page ∣ memsize) (hm : 2 * memsize ≤ a.maxDistance) (hm0 : 0 < memsize)
    (maps : List (Nat × Nat)) (M : MapOk page maps)
    (idx : List Nat) (os oe prev : Nat) (L : ObjectOfLines page maps idx os oe prev)
    (hobj : oe - os + page ≤ a.maxDistance)
    (h : Hole) (addr : Nat)
    (hf : findRegion a page memsize os oe (some prev) (parseHoles page 0 0 maps) = some (h, addr)) :
    ∀ d s, os ≤ d → d + a.hunkSize ≤ oe → addr ≤ s → s < addr + memsize →
      JumpReach a ((s : Int) - d) := by
  obtain ⟨H, H2, H3, H4⟩ := parseHoles_bounds page (by omega) maps 0 0 M (Nat.dvd_zero _) (fun r _ => Nat.zero_le _)
  have hnd : IdsNodup (parseHoles page 0 0 maps) := H3.imp fun hlt => Nat.ne_of_lt hlt
  have hoe : page ∣ oe := by
    obtain ⟨k, hk, hoe⟩ := L.last
    have hkb := L.bounds k (List.mem_of_getLast? hk)
    rw [List.getElem?_eq_getElem hkb] at hoe
    simp only [Option.map_some, Option.some.injEq] at hoe
    rw [← hoe]
    exact (M.aligned _ (List.getElem_mem hkb)).2
  have hos : page ∣ os := by
    obtain ⟨k, hk, hoe⟩ := L.first
    have hkb := L.bounds k (List.mem_of_head? hk)
    rw [List.getElem?_eq_getElem hkb] at hoe
    simp only [Option.map_some, Option.some.injEq] at hoe
    rw [← hoe]
    exact (M.aligned _ (List.getElem_mem hkb)).1
  have f6 := findRegion_reach (page_dvd_maxDistance a page hpd) hpm hoe hos hm (Nat.le_of_dvd hm0 hpm) H hnd
    (objectOfLines_ok (by omega) M L) hf
  intro d s h1 h2 h3 h4
  cases a with
  | loongarch64 => exact absurd rfl ha
  | x86 =>
    simp only [JumpReach, Arch.maxDistance, Arch.hunkSize] at *
    rcases f6 with ⟨g1, g2⟩ | ⟨g1, g2⟩ <;> omega
  | aarch64 =>
    simp only [JumpReach, Arch.maxDistance, Arch.hunkSize] at *
    rcases f6 with ⟨g1, g2⟩ | ⟨g1, g2⟩ <;> omega
  | riscv64 =>
    simp only [JumpReach, Arch.maxDistance, Arch.hunkSize] at *
    rcases f6 with ⟨g1, g2⟩ | ⟨g1, g2⟩ <;> omega

/-- C11, partial: `h` is the gap recorded before the object and `r` the one after it.  If `r` is larger than
the patch and starts closer than the window, or `h` is larger than the patch and leaves room for it
within the window, the search succeeds.  Missing: an object that has no gap on one of the two
sides (`C11_violated_no_right_gap`), and the exact boundary distance. -/
theorem C11_adjacent_gap_found_partial (a : Arch) (page memsize os oe prev : Nat) (used : List (Nat × Nat))
    (holes pre post : List Hole) (h r : Hole)
    (hm : memsize ≤ a.maxDistance)
    (H : HolesOk page used holes) (hn : IdsNodup holes) (hoe : oe < 2 ^ 64)
    (heq : holes = pre ++ h :: r :: post) (hid : h.id = prev) (hl : h.stop ≤ oe) (hr : os ≤ r.start)
    (hedge : r.start - os ≠ a.maxDistance - memsize)
    (hgood : (r.stop - r.start > memsize ∧ r.start - os < a.maxDistance - memsize) ∨
      (h.stop - h.start > memsize ∧ oe - h.stop + memsize < a.maxDistance - memsize)) :
    (findRegion a page memsize os oe (some prev) holes).isSome := by
  subst heq
  have hD : a.maxDistance < 2 ^ 32 := by cases a <;> decide
  obtain ⟨hn1, hn2⟩ := idsNodup_split hn
  rw [hid] at hn1
  have oh := H.order h (by simp)
  have orr := H.order r (by simp)
  have gh := guardEnd_ge page h
  have gr := guardEnd_ge page r
  have hz := zipAt_eq prev pre [] h (r :: post) hid hn1
  rw [List.append_nil] at hz
  have hw : sub64 a.maxDistance memsize = a.maxDistance - memsize := sub64_eq hm (by omega)
  have e1 : h.size = h.stop - h.start := sub64_eq oh.2.1 (by omega)
  have e2 : r.size = r.stop - r.start := sub64_eq orr.2.1 (by omega)
  have e3 : sub64 r.start os = r.start - os := sub64_eq hr (by omega)
  have e4 : sub64 oe h.stop = oe - h.stop := sub64_eq hl hoe
  have key : ∀ f, searchLoop (a.maxDistance - memsize) memsize os oe (h :: pre.reverse) (r :: post) = some f →
      f.rstart ≠ f.rend →
      (findRegion a page memsize os oe (some prev) (pre ++ h :: r :: post)).isSome = true := by
    intro f hf hne
    rw [findRegion_some hz hw hf hne]; rfl
  by_cases cr : r.start - os < a.maxDistance - memsize ∧ r.stop - r.start > memsize
  · apply key (takeRight (a.maxDistance - memsize) memsize os r)
    · rw [searchLoop, if_neg (by rw [e3]; omega), if_pos (by rw [e2]; exact cr.2)]
    · intro ht
      simp only [takeRight] at ht
      rw [sub64_eq (b := os) (by omega) (by omega), sub64_eq (b := memsize) (by omega) (by omega)] at ht
      split at ht
      · omega
      · rw [Nat.mod_eq_of_lt (by omega)] at ht; omega
  · have hg : h.stop - h.start > memsize ∧ oe - h.stop + memsize < a.maxDistance - memsize := by omega
    apply key (takeLeft (a.maxDistance - memsize) memsize oe h)
    · rw [searchLoop]
      by_cases c1 : sub64 r.start os > a.maxDistance - memsize
      · rw [if_pos c1, if_neg (by rw [e4]; omega), if_pos (by rw [e1]; exact hg.1)]
      · rw [if_neg c1, if_neg (by rw [e2]; rw [e3] at c1; omega), if_neg (by rw [e4]; omega),
          if_pos (by rw [e1]; exact hg.1)]
    · intro ht
      simp only [takeLeft] at ht
      rw [sub64_eq (b := h.start) (by omega) (by omega), sub64_eq (b := memsize) (by omega) (by omega)] at ht
      split at ht
      · omega
      · rw [if_pos (by omega), sub64_eq (by omega) (by omega)] at ht; omega

/-- C11: the gap after the object is preferred: if it is larger than the patch and starts closer than the window, the patch goes to its
start. -/
theorem C11_next_gap_taken (a : Arch) (page memsize os oe prev : Nat) (used : List (Nat × Nat)) (holes pre post : List Hole) (h r : Hole)
    (hm : memsize ≤ a.maxDistance) (H : HolesOk page used holes) (hn : IdsNodup holes) (hoe : os ≤ oe ∧ oe < 2 ^ 64)
    (heq : holes = pre ++ h :: r :: post) (hid : h.id = prev) (hr : os ≤ r.start)
    (hgap : r.stop - r.start > memsize) (hnear : r.start - os < a.maxDistance - memsize) :
    findRegion a page memsize os oe (some prev) holes = some (r, roundDown r.start page) := by
  subst heq
  have hD : a.maxDistance < 2 ^ 32 := by cases a <;> decide
  obtain ⟨hn1, hn2⟩ := idsNodup_split hn
  rw [hid] at hn1
  have orr := H.order r (by simp)
  have gr := guardEnd_ge page r
  have hz := zipAt_eq prev pre [] h (r :: post) hid hn1
  rw [List.append_nil] at hz
  have hw : sub64 a.maxDistance memsize = a.maxDistance - memsize := sub64_eq hm (by omega)
  have e2 : r.size = r.stop - r.start := sub64_eq orr.2.1 (by omega)
  have e3 : sub64 r.start os = r.start - os := sub64_eq hr (by omega)
  have hf : searchLoop (a.maxDistance - memsize) memsize os oe (h :: pre.reverse) (r :: post) =
      some (takeRight (a.maxDistance - memsize) memsize os r) := by
    rw [searchLoop, if_neg (by rw [e3]; omega), if_pos (by rw [e2]; exact hgap)]
  have hne : (takeRight (a.maxDistance - memsize) memsize os r).rstart ≠ (takeRight (a.maxDistance - memsize) memsize os r).rend := by
    intro ht
    simp only [takeRight] at ht
    rw [sub64_eq (b := os) (by omega) (by omega), sub64_eq (b := memsize) (by omega) (by omega)] at ht
    split at ht
    · omega
    · rw [Nat.mod_eq_of_lt (by omega)] at ht; omega
  rw [findRegion_some hz hw hf hne]
  rfl

/-- C11: a failed allocation changes nothing in the recorded gaps. -/
theorem C11_failed_search_changes_nothing (a : Arch) (page memsize os oe : Nat) (prev : Option Nat) (fresh : Nat)
    (mmapOk : Bool) (holes : List Hole)
    (h : (allocatePatch a page memsize os oe prev fresh mmapOk holes).2 = none) :
    (allocatePatch a page memsize os oe prev fresh mmapOk holes).1 = holes := by
  unfold allocatePatch at h ⊢
  cases hf : findRegion a page memsize os oe prev holes with
  | none => rfl
  | some p =>
    rw [hf] at h
    simp only at h ⊢
    split at h
    · rename_i c; rw [if_pos c]
    · rename_i c
      rw [if_neg c]
      split at h
      · rename_i c2; rw [if_pos c2]
      · simp at h

/-! ### Several allocations -/

/-- The states (gaps, allocated regions) reachable by allocating memory for objects of the process, in any
order, any number of times, with any sizes.  `objs` are the objects read from the map.  Every
allocation is made where the search is right (`NoBoundaryHole`). -/
inductive Allocs (a : Arch) (page : Nat) (maps : List (Nat × Nat)) : List Hole → List (Nat × Nat) → Prop
  | start : Allocs a page maps (parseHoles page 0 0 maps) []
  | step {holes regions} (idx : List Nat) (os oe prev memsize fresh addr : Nat) (holes' : List Hole) :
      Allocs a page maps holes regions →
      ObjectOfLines page maps idx os oe prev →
      page ∣ memsize → 0 < memsize → memsize ≤ a.maxDistance →
      (∀ k ∈ holes, k.id ≠ fresh) →
      NoBoundaryHole a.maxDistance memsize oe holes →
      allocatePatch a page memsize os oe (some prev) fresh true holes = (holes', some addr) →
      Allocs a page maps holes' ((addr, addr + memsize) :: regions)

theorem allocs_inv {a : Arch} {page : Nat} (hp : 0 < page) (hpd : page ∣ 0x8000000) {maps : List (Nat × Nat)}
    (M : MapOk page maps) {holes : List Hole} {regions : List (Nat × Nat)} (R : Allocs a page maps holes regions) :
    HolesOk page (regions ++ maps) holes ∧ IdsNodup holes ∧
    (∀ idx os oe prev, ObjectOfLines page maps idx os oe prev → ObjectOk page os oe prev holes) ∧
    regions.Pairwise (fun r s => Apart page r.1 r.2 s.1 s.2) ∧
    (∀ r ∈ regions, ∀ s ∈ maps, Apart page r.1 r.2 s.1 s.2) := by
  induction R with
  | start =>
    obtain ⟨H, H2, H3, H4⟩ := parseHoles_bounds page hp maps 0 0 M (Nat.dvd_zero _) (fun r _ => Nat.zero_le _)
    exact ⟨by simpa using H, H3.imp fun hlt => Nat.ne_of_lt hlt, fun idx os oe prev L => objectOfLines_ok hp M L,
      by simp, by simp⟩
  | @step holes regions idx os oe prev memsize fresh addr holes' _ L hpm hm0 hm hfresh hb hal ih =>
    obtain ⟨H, hnd, hobj, hpw, hmaps⟩ := ih
    have hoe : page ∣ oe := by
      obtain ⟨k, hk, hoe⟩ := L.last
      have hkb := L.bounds k (List.mem_of_getLast? hk)
      rw [List.getElem?_eq_getElem hkb] at hoe
      simp only [Option.map_some, Option.some.injEq] at hoe
      rw [← hoe]
      exact (M.aligned _ (List.getElem_mem hkb)).2
    unfold allocatePatch at hal
    cases hf : findRegion a page memsize os oe (some prev) holes with
    | none => rw [hf] at hal; simp at hal
    | some hr =>
      obtain ⟨h, ad⟩ := hr
      rw [hf] at hal
      simp only [Bool.not_true, Bool.false_eq_true, if_false] at hal
      split at hal
      · simp at hal
      simp only [Prod.mk.injEq, Option.some.injEq] at hal
      obtain ⟨rfl, rfl⟩ := hal
      obtain ⟨f1, f2, f3, f4, f5, f6⟩ := findRegion_spec hp (page_dvd_maxDistance a page hpd) hpm hoe hm H hnd
        (hobj idx os oe prev L) hb hf
      obtain ⟨s1, s2, s3, s4⟩ := splitHole_spec (s := ad) (e := ad + memsize) hp H hnd f1 f2 (Nat.dvd_add f2 hpm) f3
        (by omega) f4 hfresh
      have hap : ∀ r ∈ regions ++ maps, Apart page ad (ad + memsize) r.1 r.2 := by
        intro r hr
        have := H.apart h f1 f5 r hr
        unfold Apart at *; omega
      refine ⟨s1, s2, fun idx os oe prev L => s4 os oe prev (hobj idx os oe prev L), ?_, ?_⟩
      · exact List.pairwise_cons.mpr ⟨fun r hr => hap r (by simp [hr]), hpw⟩
      · intro r hr s hs
        rcases List.mem_cons.mp hr with rfl | hr
        · exact hap s (by simp [hs])
        · exact hmaps r hr s hs

/-- C13, partial (in the same sense as C09): after any sequence of allocations for any objects of the process,
the allocated regions are at least a page apart from each other and from every mapping, and the
recorded gaps are sorted, page aligned, and at least a page away from all of them. -/
theorem C13_allocations_disjoint_partial {a : Arch} {page : Nat} (hp : 0 < page) (hpd : page ∣ 0x8000000)
    {maps : List (Nat × Nat)} (M : MapOk page maps) {holes : List Hole} {regions : List (Nat × Nat)}
    (R : Allocs a page maps holes regions) :
    regions.Pairwise (fun r s => Apart page r.1 r.2 s.1 s.2) ∧
    (∀ r ∈ regions, ∀ s ∈ maps, Apart page r.1 r.2 s.1 s.2) ∧
    holes.Pairwise (fun h k => h.stop ≤ k.start) ∧
    (∀ h ∈ holes, h.start < h.stop → ∀ r ∈ regions ++ maps, Apart page h.start h.stop r.1 r.2) := by
  obtain ⟨H, hnd, hobj, hpw, hmaps⟩ := allocs_inv hp hpd M R
  exact ⟨hpw, hmaps, H.sorted.imp fun hle => Nat.le_trans (guardEnd_ge page _) hle, H.apart⟩

/-! ### Witnesses -/
namespace ExHoles

/-- A process: executable at 0x400000, a library at 0x7f0000000000, the vdso after it. -/
def maps : List (Nat × Nat) :=
  [(0x400000, 0x401000), (0x600000, 0x602000), (0x7f0000000000, 0x7f0000020000), (0x7f0000220000, 0x7f0000221000),
   (0x7ffff0000000, 0x7ffff0002000)]

theorem maps_ok : MapOk 4096 maps where
  nonempty := by decide +kernel
  bound := by decide +kernel
  aligned := by decide +kernel
  sorted := by decide +kernel

/-- The library consists of the third and fourth line; its previous hole is the third gap. -/
theorem lib : ObjectOfLines 4096 maps [2, 3] 0x7f0000000000 0x7f0000221000 2 where
  ordered := by decide +kernel
  bounds := by decide +kernel
  first := ⟨2, by decide +kernel, by decide +kernel⟩
  last := ⟨3, by decide +kernel, by decide +kernel⟩
  hole := by decide +kernel

example : findRegion .x86 4096 0x3000 0x7f0000000000 0x7f0000221000 (some 2) (parseHoles 4096 0 0 maps) =
    some (⟨3, 0x7f0000021000, 0x7f000021f000⟩, 0x7f0000021000) := by decide +kernel

example : NoBoundaryHole Arch.x86.maxDistance 0x3000 0x7f0000221000 (parseHoles 4096 0 0 maps) := by
  unfold NoBoundaryHole; decide +kernel

/-- The gaps after one and after two allocations of 12 KiB for the library. -/
def after1 : List Hole :=
  (allocatePatch .x86 4096 0x3000 0x7f0000000000 0x7f0000221000 (some 2) 100 true (parseHoles 4096 0 0 maps)).1

def after2 : List Hole :=
  (allocatePatch .x86 4096 0x3000 0x7f0000000000 0x7f0000221000 (some 2) 101 true after1).1

example : Allocs .x86 4096 maps after2 [(139637976879104, 139637976879104 + 0x3000), (139637976862720, 139637976862720 + 0x3000)] :=
  Allocs.step [2, 3] _ _ _ 0x3000 101 _ _
    (Allocs.step [2, 3] _ _ _ 0x3000 100 _ after1 .start lib (by decide +kernel) (by decide +kernel) (by decide +kernel) (by decide +kernel)
      (by unfold NoBoundaryHole; decide +kernel) (by decide +kernel))
    lib (by decide +kernel) (by decide +kernel) (by decide +kernel) (by decide +kernel) (by unfold NoBoundaryHole; decide +kernel)
    (by decide +kernel)

/-- A process whose second mapping is an object of almost 2 GiB, with only a small gap above it. -/
def farMaps : List (Nat × Nat) := [(0x10000000, 0x8ffef000), (0x8fff2000, 0x8fff3000)]

theorem far_ok : MapOk 4096 farMaps where
  nonempty := by decide +kernel
  bound := by decide +kernel
  aligned := by decide +kernel
  sorted := by decide +kernel

theorem far_obj : ObjectOfLines 4096 farMaps [0] 0x10000000 0x8ffef000 0 where
  ordered := by decide +kernel
  bounds := by decide +kernel
  first := ⟨0, by decide +kernel, by decide +kernel⟩
  last := ⟨0, by decide +kernel, by decide +kernel⟩
  hole := by decide +kernel

/-- A process with one object between a large gap below and a tiny one above. -/
def lowMaps : List (Nat × Nat) := [(0x40000000, 0x40001000), (0x40004000, 0x40005000)]

theorem low_ok : MapOk 4096 lowMaps where
  nonempty := by decide +kernel
  bound := by decide +kernel
  aligned := by decide +kernel
  sorted := by decide +kernel

theorem low_obj : ObjectOfLines 4096 lowMaps [0] 0x40000000 0x40001000 0 where
  ordered := by decide +kernel
  bounds := by decide +kernel
  first := ⟨0, by decide +kernel, by decide +kernel⟩
  last := ⟨0, by decide +kernel, by decide +kernel⟩
  hole := by decide +kernel

theorem low_obj2 : ObjectOfLines 4096 lowMaps [1] 0x40004000 0x40005000 1 where
  ordered := by decide +kernel
  bounds := by decide +kernel
  first := ⟨1, by decide +kernel, by decide +kernel⟩
  last := ⟨1, by decide +kernel, by decide +kernel⟩
  hole := by decide +kernel

end ExHoles

open ExHoles in
/-- C09 as stated is false of the code: in this address space the region chosen for a 64 KiB patch overlaps the
object itself, so that `MAP_FIXED` would destroy its first 60 KiB. -/
theorem C09_violated_far_left_gap :
    MapOk 4096 farMaps ∧ ObjectOfLines 4096 farMaps [0] 0x10000000 0x8ffef000 0 ∧
    findRegion .x86 4096 0x10000 0x10000000 0x8ffef000 (some 0) (parseHoles 4096 0 0 farMaps) =
      some (⟨0, 0x1000, 0xffff000⟩, 0xffff000) ∧
    (0xffff000 ≤ 0x10000000 ∧ 0x10000000 < 0xffff000 + 0x10000 ∧ Covered farMaps 0x10000000) := by
  refine ⟨far_ok, far_obj, by decide +kernel, by decide +kernel, by decide +kernel, ?_⟩
  exact ⟨(0x10000000, 0x8ffef000), by decide +kernel, by decide +kernel, by decide +kernel⟩

/-- C13 as stated is false of the code: patches of 128 KiB for an object of almost 2 GiB and of 64 KiB for the one behind it.  The second
patch starts in the gap before the first and overlaps it: `MAP_FIXED` would replace a part of the first patch. -/
theorem C13_violated_far_left_gap : ∃ (maps : List (Nat × Nat)) (holes : List Hole) (p1 p2 : Nat),
    MapOk 4096 maps ∧ ObjectOfLines 4096 maps [0] 0x10044000 0x90000000 0 ∧ ObjectOfLines 4096 maps [1] 0x90000000 0x90001000 0 ∧
    allocatePatch .x86 4096 0x20000 0x10044000 0x90000000 (some 0) 99 true (parseHoles 4096 0 0 maps) = (holes, some p1) ∧
    (allocatePatch .x86 4096 0x10000 0x90000000 0x90001000 (some 0) 100 true holes).2 = some p2 ∧
    p2 < p1 ∧ p1 < p2 + 0x10000 := by
  refine ⟨[(0x10044000, 0x90000000), (0x90000000, 0x90001000), (0x90004000, 0x90005000), (0x90008000, 0x90009000)],
    [⟨99, 0x1000, 0x1001f000⟩, ⟨0, 0x10041000, 0x10043000⟩, ⟨1, 0x90002000, 0x90003000⟩, ⟨2, 0x90006000, 0x90007000⟩], 0x10020000, 0x10011000, ⟨by decide +kernel, by decide +kernel, by decide +kernel, by decide +kernel⟩,
    ⟨by decide +kernel, by decide +kernel, ⟨0, by decide +kernel, by decide +kernel⟩, ⟨0, by decide +kernel, by decide +kernel⟩, by decide +kernel⟩,
    ⟨by decide +kernel, by decide +kernel, ⟨1, by decide +kernel, by decide +kernel⟩, ⟨1, by decide +kernel, by decide +kernel⟩, by decide +kernel⟩,
    ?_, ?_, by decide, by decide⟩ <;> decide +kernel

open ExHoles in
/-- C10 is false on LoongArch: the chosen region is 1 GiB below the object, out of reach of its branch. -/
theorem C10_violated_loongarch :
    MapOk 4096 lowMaps ∧ ObjectOfLines 4096 lowMaps [0] 0x40000000 0x40001000 0 ∧
    findRegion .loongarch64 4096 0x3000 0x40000000 0x40001000 (some 0) (parseHoles 4096 0 0 lowMaps) =
      some (⟨0, 0x1000, 0x3ffff000⟩, 0x1000) ∧
    ¬ JumpReach .loongarch64 ((0x1000 : Int) - 0x40000000) := by
  refine ⟨low_ok, low_obj, by decide +kernel, ?_⟩
  simp [JumpReach]

open ExHoles in
/-- C11 as stated is false of the code: the object at the top of the address space has a huge gap before it (well
within distance for a patch of one page, were it looked at), but no gap after it, and the search fails. -/
theorem C11_violated_no_right_gap :
    MapOk 4096 [(0x400000, 0x401000)] ∧
    ObjectOfLines 4096 [(0x400000, 0x401000)] [0] 0x400000 0x401000 0 ∧
    parseHoles 4096 0 0 [(0x400000, 0x401000)] = [⟨0, 0x1000, 0x3ff000⟩] ∧
    findRegion .x86 4096 0x1000 0x400000 0x401000 (some 0) (parseHoles 4096 0 0 [(0x400000, 0x401000)]) = none := by
  refine ⟨⟨by decide +kernel, by decide +kernel, by decide +kernel, by decide +kernel⟩,
    ⟨by decide +kernel, by decide +kernel, ⟨0, by decide +kernel, by decide +kernel⟩, ⟨0, by decide +kernel, by decide +kernel⟩, by decide +kernel⟩, by decide +kernel, by decide +kernel⟩

end Verif
