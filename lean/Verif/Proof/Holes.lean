import Verif.Spec.Holes
import Verif.Proof.Bytes
/-
Helper lemmas about gaps.
-/
namespace Verif

theorem sub64_eq {a b : Nat} (h : b ≤ a) (ha : a < 2 ^ 64) : sub64 a b = a - b := by
  unfold sub64; omega

theorem guardEnd_ge (page : Nat) (h : Hole) : h.stop ≤ h.guardEnd page := by
  unfold Hole.guardEnd; split <;> omega

theorem guardEnd_pos {page : Nat} {h : Hole} (hh : h.start < h.stop) : h.guardEnd page = h.stop + page := by
  unfold Hole.guardEnd; rw [if_pos hh]

theorem parseHoles_bounds (page : Nat) (hp : 0 < page) : ∀ (maps : List (Nat × Nat)) (hs next : Nat),
    MapOk page maps → page ∣ hs → (∀ r ∈ maps, hs ≤ r.1) →
    HolesOk page maps (parseHoles page hs next maps) ∧
    (∀ h ∈ parseHoles page hs next maps, hs + page ≤ h.start ∧ h.start < h.stop ∧ next ≤ h.id) ∧
    (parseHoles page hs next maps).Pairwise (fun h k => h.id < k.id) ∧
    (∀ x, hs ≤ x → (∀ r ∈ maps, x + page < r.1 ∨ r.2 + page ≤ x) → hs + page ≤ x →
      (∃ r ∈ maps, x < r.1) → ∃ h ∈ parseHoles page hs next maps, h.start ≤ x ∧ x < h.stop) := by
  intro maps
  induction maps with
  | nil =>
    intro hs next _ _ _
    refine ⟨⟨?_, ?_, ?_, ?_⟩, ?_, ?_, ?_⟩ <;> simp [parseHoles]
  | cons r rest ih =>
    intro hs next M hal hle
    obtain ⟨s, e⟩ := r
    have hse := M.nonempty (s, e) (by simp)
    have hb := M.bound (s, e) (by simp)
    have ha := M.aligned (s, e) (by simp)
    obtain ⟨hd, hsr⟩ := List.pairwise_cons.mp M.sorted
    simp only at hse hb ha hd
    have hs_le := hle (s, e) (by simp)
    simp only at hs_le
    have Mr : MapOk page rest := ⟨fun r hr => M.nonempty r (by simp [hr]), fun r hr => M.bound r (by simp [hr]),
      fun r hr => M.aligned r (by simp [hr]), hsr⟩
    have hsub : sub64 s hs = s - hs := sub64_eq hs_le (by omega)
    have hres : ∀ nx, (∀ h ∈ parseHoles page e nx rest, hs + page ≤ h.start ∧ h.start < h.stop ∧ nx ≤ h.id) ∧
        HolesOk page ((s, e) :: rest) (parseHoles page e nx rest) := by
      intro nx
      obtain ⟨H, H2, H3, H4⟩ := ih e nx Mr ha.2 hd
      refine ⟨fun h hh => ?_, ⟨H.order, H.aligned, H.sorted, ?_⟩⟩
      · have := H2 h hh; omega
      · intro h hh hne r hr
        rcases List.mem_cons.mp hr with rfl | hr
        · right
          have := H2 h hh
          simp only; omega
        · exact H.apart h hh hne r hr
    unfold parseHoles
    rw [hsub]
    by_cases hc : s - hs > 2 * page
    · rw [if_pos hc]
      obtain ⟨H, H2, H3, H4⟩ := ih e (next + 1) Mr ha.2 hd
      obtain ⟨hr1, HR⟩ := hres (next + 1)
      have g : Hole.guardEnd page ⟨next, hs + page, s - page⟩ = s := by
        rw [guardEnd_pos (by simp only; omega)]; simp only; omega
      refine ⟨⟨?_, ?_, ?_, ?_⟩, ?_, ?_, ?_⟩
      · intro h hh
        rcases List.mem_cons.mp hh with rfl | hh
        · rw [g]; simp only; omega
        · exact HR.order h hh
      · intro h hh
        rcases List.mem_cons.mp hh with rfl | hh
        · exact ⟨Nat.dvd_add hal (Nat.dvd_refl _), Nat.dvd_sub ha.1 (Nat.dvd_refl _)⟩
        · exact HR.aligned h hh
      · refine List.pairwise_cons.mpr ⟨?_, HR.sorted⟩
        intro k hk
        rw [g]
        have := H2 k hk
        omega
      · intro h hh hne r hr
        rcases List.mem_cons.mp hh with rfl | hh
        · left
          simp only
          rcases List.mem_cons.mp hr with rfl | hr
          · simp only; omega
          · have := hd r hr; omega
        · exact HR.apart h hh hne r hr
      · intro h hh
        rcases List.mem_cons.mp hh with rfl | hh
        · simp only; omega
        · have := hr1 h hh
          omega
      · refine List.pairwise_cons.mpr ⟨?_, H3⟩
        intro k hk
        have := H2 k hk
        simp only; omega
      · intro x hx hfar hxp hex
        by_cases hxs : x < s
        · refine ⟨_, List.mem_cons_self .., ?_⟩
          have := hfar (s, e) (by simp)
          simp only at this ⊢
          omega
        · have h1 := hfar (s, e) (by simp)
          simp only at h1
          obtain ⟨r, hr, hxr⟩ := hex
          have hr' : r ∈ rest := by
            rcases List.mem_cons.mp hr with rfl | hr
            · simp only at hxr; omega
            · exact hr
          obtain ⟨h, hh, hx'⟩ := H4 x (by omega) (fun r hr => hfar r (by simp [hr])) (by omega) ⟨r, hr', hxr⟩
          exact ⟨h, List.mem_cons_of_mem _ hh, hx'⟩
    · rw [if_neg hc]
      obtain ⟨H, H2, H3, H4⟩ := ih e next Mr ha.2 hd
      obtain ⟨hr1, HR⟩ := hres next
      refine ⟨HR, hr1, H3, ?_⟩
      intro x hx hfar hxp hex
      have h1 := hfar (s, e) (by simp)
      simp only at h1
      have hxs : ¬ x < s := by omega
      obtain ⟨r, hr, hxr⟩ := hex
      have hr' : r ∈ rest := by
        rcases List.mem_cons.mp hr with rfl | hr
        · simp only at hxr; omega
        · exact hr
      exact H4 x (by omega) (fun r hr => hfar r (by simp [hr])) (by omega) ⟨r, hr', hxr⟩

theorem lineHoles_length (page : Nat) : ∀ (maps : List (Nat × Nat)) (hs next : Nat) (cur : Option Nat),
    (lineHoles page hs next cur maps).length = maps.length := by
  intro maps
  induction maps with
  | nil => intro hs next cur; rfl
  | cons r rest ih =>
    intro hs next cur
    obtain ⟨s, e⟩ := r
    unfold lineHoles
    split <;> simp [ih]

/-- The gap passed with a line of the map lies below it, the later gaps above it. -/
theorem lineHoles_spec (page : Nat) (hp : 0 < page) : ∀ (maps : List (Nat × Nat)) (hs next : Nat) (done : List Hole),
    MapOk page maps → page ∣ hs → (∀ r ∈ maps, hs ≤ r.1) → (∀ k ∈ done, k.guardEnd page ≤ hs) →
    ∀ i (hi : i < maps.length) id,
      (lineHoles page hs next (done.getLast?.map Hole.id) maps)[i]? = some (some id) →
      ∃ pre h post, done ++ parseHoles page hs next maps = pre ++ h :: post ∧ h.id = id ∧
        (∀ k ∈ pre ++ [h], k.guardEnd page ≤ maps[i].1) ∧ (∀ k ∈ post, maps[i].1 ≤ k.start) := by
  intro maps
  induction maps with
  | nil => intro hs next done _ _ _ _ i hi; simp at hi
  | cons r rest ih =>
    intro hs next done M hal hle hdone i hi id hl
    obtain ⟨s, e⟩ := r
    have hse := M.nonempty (s, e) (by simp)
    have hb := M.bound (s, e) (by simp)
    have ha := M.aligned (s, e) (by simp)
    obtain ⟨hd, hsr⟩ := List.pairwise_cons.mp M.sorted
    simp only at hse hb ha hd
    have hs_le := hle (s, e) (by simp)
    simp only at hs_le
    have Mr : MapOk page rest := ⟨fun r hr => M.nonempty r (by simp [hr]), fun r hr => M.bound r (by simp [hr]),
      fun r hr => M.aligned r (by simp [hr]), hsr⟩
    have hsub : sub64 s hs = s - hs := sub64_eq hs_le (by omega)
    unfold lineHoles at hl
    unfold parseHoles
    rw [hsub] at hl ⊢
    by_cases hc : s - hs > 2 * page
    · rw [if_pos hc] at hl ⊢
      have g : Hole.guardEnd page ⟨next, hs + page, s - page⟩ = s := by
        rw [guardEnd_pos (by simp only; omega)]; simp only; omega
      obtain ⟨-, H2, -, -⟩ := parseHoles_bounds page hp rest e (next + 1) Mr ha.2 hd
      cases i with
      | zero =>
        simp only [List.getElem?_cons_zero, Option.some.injEq] at hl
        subst hl
        refine ⟨done, _, _, rfl, rfl, ?_, ?_⟩
        · intro k hk
          simp only [List.getElem_cons_zero]
          rcases List.mem_append.mp hk with hk | hk
          · have := hdone k hk; omega
          · simp only [List.mem_singleton] at hk; subst hk; rw [g]; omega
        · intro k hk
          simp only [List.getElem_cons_zero]
          have := H2 k hk; omega
      | succ i =>
        simp only [List.getElem?_cons_succ] at hl
        have hdone' : ∀ k ∈ done ++ [⟨next, hs + page, s - page⟩], k.guardEnd page ≤ e := by
          intro k hk
          rcases List.mem_append.mp hk with hk | hk
          · have := hdone k hk; omega
          · simp only [List.mem_singleton] at hk; subst hk; rw [g]; omega
        have := ih e (next + 1) (done ++ [⟨next, hs + page, s - page⟩]) Mr ha.2 hd hdone' i
          (by simpa using hi) id (by simpa using hl)
        simpa using this
    · rw [if_neg hc] at hl ⊢
      obtain ⟨-, H2, -, -⟩ := parseHoles_bounds page hp rest e next Mr ha.2 hd
      cases i with
      | zero =>
        simp only [List.getElem?_cons_zero, Option.some.injEq, Option.map_eq_some_iff] at hl
        obtain ⟨h, hlast, hid⟩ := hl
        obtain ⟨d, rfl⟩ := List.getLast?_eq_some_iff.mp hlast
        refine ⟨d, h, _, by rw [List.append_assoc]; rfl, hid, ?_, ?_⟩
        · intro k hk
          simp only [List.getElem_cons_zero]
          have := hdone k hk; omega
        · intro k hk
          simp only [List.getElem_cons_zero]
          have := H2 k hk; omega
      | succ i =>
        simp only [List.getElem?_cons_succ] at hl
        have hdone' : ∀ k ∈ done, k.guardEnd page ≤ e := by
          intro k hk
          have := hdone k hk; omega
        have := ih e next done Mr ha.2 hd hdone' i (by simpa using hi) id hl
        simpa using this

/-- What the search loop can return. -/
theorem searchLoop_some {maxd memsize os oe : Nat} : ∀ {ls rs : List Hole} {f : Found},
    searchLoop maxd memsize os oe ls rs = some f →
    (∃ l ∈ ls, f = takeLeft maxd memsize oe l ∧ sub64 oe l.stop ≤ maxd ∧ memsize < l.size) ∨
    (∃ r ∈ rs, f = takeRight maxd memsize os r ∧ sub64 r.start os ≤ maxd ∧ memsize < r.size) := by
  intro ls
  induction ls with
  | nil => intro rs f h; simp [searchLoop] at h
  | cons l ls ih =>
    intro rs f h
    cases rs with
    | nil => simp [searchLoop] at h
    | cons r rs =>
      unfold searchLoop at h
      split at h
      · split at h
        · simp at h
        · split at h
          · left
            exact ⟨l, by simp, by simpa using h.symm, by omega, by omega⟩
          · simp at h
      · split at h
        · right
          exact ⟨r, by simp, by simpa using h.symm, by omega, by omega⟩
        · split at h
          · simp at h
          · split at h
            · left
              exact ⟨l, by simp, by simpa using h.symm, by omega, by omega⟩
            · rcases ih h with ⟨l', hl, h1⟩ | ⟨r', hr, h1⟩
              · left; exact ⟨l', by simp [hl], h1⟩
              · right; exact ⟨r', by simp [hr], h1⟩

theorem zipAt_eq (prev : Nat) : ∀ (pre before : List Hole) (h : Hole) (post : List Hole),
    h.id = prev → (∀ k ∈ pre, k.id ≠ prev) →
    zipAt prev before (pre ++ h :: post) = some (h :: (pre.reverse ++ before), post) := by
  intro pre
  induction pre with
  | nil => intro before h post he _; simp [zipAt, he]
  | cons k pre ih =>
    intro before h post he hne
    simp only [List.cons_append, zipAt]
    rw [if_neg (hne k (by simp)), ih (k :: before) h post he (fun k hk => hne k (by simp [hk]))]
    simp

theorem splitHole_eq (page s e id fresh : Nat) : ∀ (pre : List Hole) (h : Hole) (post : List Hole),
    h.id = id → (∀ k ∈ pre, k.id ≠ id) →
    splitHole page s e id fresh (pre ++ h :: post) = pre ++ splitHole page s e id fresh (h :: post) := by
  intro pre
  induction pre with
  | nil => intro h post _ _; rfl
  | cons k pre ih =>
    intro h post he hne
    simp only [List.cons_append]
    rw [splitHole, if_neg (hne k (by simp)), ih h post he (fun k hk => hne k (by simp [hk]))]

theorem roundDown_of_dvd {x m : Nat} (h : m ∣ x) : roundDown x m = x := Nat.div_mul_cancel h

theorem roundUp_of_dvd {x m : Nat} (hm : 0 < m) (h : m ∣ x) : roundUp x m = x :=
  roundUp_of_mod x m hm (Nat.mod_eq_zero_of_dvd h)

/-- The ids of a list of holes are pairwise different. -/
def IdsNodup (holes : List Hole) : Prop := holes.Pairwise fun h k => h.id ≠ k.id

theorem idsNodup_split {pre post : List Hole} {h : Hole} (hn : IdsNodup (pre ++ h :: post)) :
    (∀ k ∈ pre, k.id ≠ h.id) ∧ (∀ k ∈ post, k.id ≠ h.id) := by
  unfold IdsNodup at hn
  rw [List.pairwise_append] at hn
  obtain ⟨h1, h2, h3⟩ := hn
  refine ⟨fun k hk => h3 k hk h (by simp), fun k hk => ?_⟩
  exact fun he => (List.pairwise_cons.mp h2).1 k hk he.symm

/-- The region found lies in the chosen gap and within reach. -/
theorem findRegion_spec {a : Arch} {page memsize os oe prev : Nat} {used : List (Nat × Nat)} {holes : List Hole}
    (hp : 0 < page) (hpd : page ∣ a.maxDistance) (hpm : page ∣ memsize) (hpe : page ∣ oe)
    (hm : memsize ≤ a.maxDistance)
    (H : HolesOk page used holes) (hn : IdsNodup holes) (O : ObjectOk page os oe prev holes)
    (hb : NoBoundaryHole a.maxDistance memsize oe holes) {h : Hole} {addr : Nat}
    (hf : findRegion a page memsize os oe (some prev) holes = some (h, addr)) :
    h ∈ holes ∧ page ∣ addr ∧ h.start ≤ addr ∧ addr + memsize ≤ h.stop ∧ h.start < h.stop ∧
    ((os ≤ addr ∧ addr + memsize ≤ os + a.maxDistance) ∨
     (addr + memsize ≤ oe ∧ oe + memsize ≤ addr + a.maxDistance)) := by
  have hD : a.maxDistance < 2 ^ 32 := by cases a <;> decide
  obtain ⟨pre, p, post, heq, hid, hpre, hpost⟩ := O.here
  subst heq
  obtain ⟨hn1, hn2⟩ := idsNodup_split hn
  rw [hid] at hn1 hn2
  have hoe := O.bound
  have hoo := O.order
  unfold findRegion at hf
  simp only at hf
  rw [zipAt_eq prev pre [] p post hid hn1] at hf
  simp only [List.append_nil] at hf
  rw [sub64_eq hm (by omega)] at hf
  generalize hs : searchLoop (a.maxDistance - memsize) memsize os oe (p :: pre.reverse) post = sr at hf
  cases sr with
  | none => simp at hf
  | some f =>
    simp only at hf
    split at hf
    · simp at hf
    simp only [Option.some.injEq, Prod.mk.injEq] at hf
    obtain ⟨hfh, hfa⟩ := hf
    rcases searchLoop_some hs with ⟨l, hl, rfl, hd, hsz⟩ | ⟨r, hr, rfl, hd, hsz⟩
    · have hl' : l ∈ pre ++ [p] := by
        simp only [List.mem_cons, List.mem_reverse] at hl
        simp only [List.mem_append, List.mem_singleton]
        exact hl.symm
      have hmem : l ∈ pre ++ p :: post := by
        simp only [List.mem_append, List.mem_singleton] at hl'
        simp only [List.mem_append, List.mem_cons]
        grind
      have hg := hpre l hl'
      have hgs := guardEnd_ge page l
      have ho := H.order l hmem
      have hal := H.aligned l hmem
      simp only [Hole.size] at hsz
      rw [sub64_eq ho.2.1 (by omega)] at hsz
      have hlt : l.start < l.stop := by omega
      rw [guardEnd_pos hlt] at hg
      rw [sub64_eq (by omega) (by omega)] at hd
      have hbo := hb l hmem (by omega) hd
      simp only [takeLeft] at hfh hfa
      rw [sub64_eq (by omega) (by omega)] at hfa
      subst hfh
      split at hfa
      · rw [roundDown_of_dvd hal.1] at hfa
        subst hfa
        refine ⟨hmem, hal.1, Nat.le_refl _, by omega, hlt, Or.inr ⟨by omega, by omega⟩⟩
      · rename_i hfar
        rw [if_pos (by omega), sub64_eq (by omega) (by omega)] at hfa
        have hdv : page ∣ oe - (a.maxDistance - memsize) := Nat.dvd_sub hpe (Nat.dvd_sub hpd hpm)
        rw [roundDown_of_dvd hdv] at hfa
        subst hfa
        refine ⟨hmem, hdv, by omega, by omega, hlt, Or.inr ⟨by omega, by omega⟩⟩
    · have hmem : r ∈ pre ++ p :: post := by simp [hr]
      have ho := H.order r hmem
      have hal := H.aligned r hmem
      have hgs := guardEnd_ge page r
      have hos := hpost r hr
      simp only [Hole.size] at hsz
      rw [sub64_eq ho.2.1 (by omega)] at hsz
      rw [sub64_eq (by omega) (by omega)] at hd
      simp only [takeRight] at hfh hfa
      subst hfh
      rw [roundDown_of_dvd hal.1] at hfa
      subst hfa
      refine ⟨hmem, hal.1, Nat.le_refl _, by omega, by omega, Or.inl ⟨by omega, by omega⟩⟩

theorem findRegion_some {a : Arch} {page memsize os oe prev maxd : Nat} {holes ls rs : List Hole} {f : Found}
    (hz : zipAt prev [] holes = some (ls, rs)) (hw : sub64 a.maxDistance memsize = maxd)
    (hf : searchLoop maxd memsize os oe ls rs = some f) (hne : f.rstart ≠ f.rend) :
    findRegion a page memsize os oe (some prev) holes = some (f.hole, roundDown f.rstart page) := by
  subst hw
  simp only [findRegion, hz, hf, if_neg hne]

/-- The region found is within reach of the object, wherever it is placed. -/
theorem findRegion_reach {a : Arch} {page memsize os oe prev : Nat} {used : List (Nat × Nat)} {holes : List Hole}
    (hpd : page ∣ a.maxDistance) (hpm : page ∣ memsize) (hpe : page ∣ oe) (hps : page ∣ os)
    (hm : 2 * memsize ≤ a.maxDistance) (hm0 : page ≤ memsize)
    (H : HolesOk page used holes) (hn : IdsNodup holes) (O : ObjectOk page os oe prev holes)
    {h : Hole} {addr : Nat}
    (hf : findRegion a page memsize os oe (some prev) holes = some (h, addr)) :
    (os ≤ addr ∧ addr + memsize + page ≤ os + a.maxDistance) ∨
     (addr + memsize ≤ oe ∧ oe + memsize ≤ addr + a.maxDistance) := by
  have hD : a.maxDistance < 2 ^ 32 := by cases a <;> decide
  obtain ⟨pre, p, post, heq, hid, hpre, hpost⟩ := O.here
  subst heq
  obtain ⟨hn1, hn2⟩ := idsNodup_split hn
  rw [hid] at hn1 hn2
  have hoe := O.bound
  have hoo := O.order
  unfold findRegion at hf
  simp only at hf
  rw [zipAt_eq prev pre [] p post hid hn1] at hf
  simp only [List.append_nil] at hf
  rw [sub64_eq (by omega) (by omega)] at hf
  generalize hs : searchLoop (a.maxDistance - memsize) memsize os oe (p :: pre.reverse) post = sr at hf
  cases sr with
  | none => simp at hf
  | some f =>
    simp only at hf
    split at hf
    · simp at hf
    rename_i htie
    simp only [Option.some.injEq, Prod.mk.injEq] at hf
    obtain ⟨hfh, hfa⟩ := hf
    rcases searchLoop_some hs with ⟨l, hl, rfl, hd, hsz⟩ | ⟨r, hr, rfl, hd, hsz⟩
    · have hl' : l ∈ pre ++ [p] := by
        simp only [List.mem_cons, List.mem_reverse] at hl
        simp only [List.mem_append, List.mem_singleton]
        exact hl.symm
      have hmem : l ∈ pre ++ p :: post := by
        simp only [List.mem_append, List.mem_singleton] at hl'
        simp only [List.mem_append, List.mem_cons]
        grind
      have hg := hpre l hl'
      have hgs := guardEnd_ge page l
      have ho := H.order l hmem
      have hal := H.aligned l hmem
      simp only [Hole.size] at hsz
      rw [sub64_eq ho.2.1 (by omega)] at hsz
      have hlt : l.start < l.stop := by omega
      rw [guardEnd_pos hlt] at hg
      rw [sub64_eq (by omega) (by omega)] at hd
      simp only [takeLeft] at hfh hfa
      rw [sub64_eq (by omega) (by omega)] at hfa
      subst hfh
      right
      split at hfa
      · rw [roundDown_of_dvd hal.1] at hfa
        omega
      · rename_i hfar
        rw [if_pos (by omega), sub64_eq (by omega) (by omega)] at hfa
        have hdv : page ∣ oe - (a.maxDistance - memsize) := Nat.dvd_sub hpe (Nat.dvd_sub hpd hpm)
        rw [roundDown_of_dvd hdv] at hfa
        omega
    · have hmem : r ∈ pre ++ p :: post := by simp [hr]
      have ho := H.order r hmem
      have hal := H.aligned r hmem
      have hgs := guardEnd_ge page r
      have hos := hpost r hr
      simp only [Hole.size] at hsz
      rw [sub64_eq ho.2.1 (by omega)] at hsz
      rw [sub64_eq (by omega) (by omega)] at hd
      simp only [takeRight] at hfh hfa htie
      subst hfh
      rw [roundDown_of_dvd hal.1] at hfa
      subst hfa
      left
      refine ⟨hos, ?_⟩
      rw [sub64_eq (by omega) (by omega)] at htie
      split at htie
      · omega
      · -- distance is a multiple of the page below the maximum
        by_cases hlt : os + (a.maxDistance - memsize) < 2 ^ 64
        · rw [Nat.mod_eq_of_lt hlt] at htie
          have hdv : page ∣ os + (a.maxDistance - memsize) := Nat.dvd_add hps (Nat.dvd_sub hpd hpm)
          have hdv2 : page ∣ os + (a.maxDistance - memsize) - r.start := Nat.dvd_sub hdv hal.1
          have := Nat.le_of_dvd (by omega) hdv2
          omega
        · have hdv : page ∣ os + (a.maxDistance - memsize) := Nat.dvd_add hps (Nat.dvd_sub hpd hpm)
          have hdv2 : page ∣ os + (a.maxDistance - memsize) - r.start := Nat.dvd_sub hdv hal.1
          have := Nat.le_of_dvd (by omega) hdv2
          omega

/-- Splitting a gap keeps the gaps correct, with the new region among the used memory. -/
theorem splitHole_spec {page s e fresh : Nat} {used : List (Nat × Nat)} {holes : List Hole} {h : Hole}
    (hp : 0 < page) (H : HolesOk page used holes) (hn : IdsNodup holes) (hmem : h ∈ holes)
    (hs : page ∣ s) (he : page ∣ e) (h1 : h.start ≤ s) (h2 : s < e) (h3 : e ≤ h.stop)
    (hfresh : ∀ k ∈ holes, k.id ≠ fresh) :
    HolesOk page ((s, e) :: used) (splitHole page s e h.id fresh holes) ∧
    IdsNodup (splitHole page s e h.id fresh holes) ∧
    (∀ k ∈ splitHole page s e h.id fresh holes, k ∈ holes ∨ k.id = fresh ∨ k.id = h.id) ∧
    (∀ os oe prev, ObjectOk page os oe prev holes → ObjectOk page os oe prev (splitHole page s e h.id fresh holes)) := by
  obtain ⟨pre, post, rfl⟩ := List.append_of_mem hmem
  obtain ⟨hn1, hn2⟩ := idsNodup_split hn
  rw [splitHole_eq page s e h.id fresh pre h post rfl hn1]
  have ho := H.order h hmem
  have hal := H.aligned h hmem
  have hlt : h.start < h.stop := by omega
  have hg := guardEnd_pos (page := page) hlt
  rw [hg] at ho
  simp only [splitHole, if_true]
  rw [roundDown_of_dvd hs, roundUp_of_dvd hp he, sub64_eq (by omega) (by omega)]
  generalize hR : (⟨h.id, e + page, if h.stop > e + page then h.stop else e + page⟩ : Hole) = R
  have hRid : R.id = h.id := by rw [← hR]
  have hRs : R.start = e + page := by rw [← hR]
  have hRstop : R.stop = if h.stop > e + page then h.stop else e + page := by rw [← hR]
  have hRle : R.start ≤ R.stop := by rw [hRs, hRstop]; split <;> omega
  have hRg : R.guardEnd page ≤ h.stop + page := by
    unfold Hole.guardEnd
    by_cases hgt : h.stop > e + page
    · rw [if_pos hgt] at hRstop
      split <;> omega
    · rw [if_neg hgt] at hRstop
      rw [if_neg (by omega)]; omega
  have hRal : page ∣ R.start ∧ page ∣ R.stop := by
    rw [hRs, hRstop]
    have := Nat.dvd_add he (Nat.dvd_refl page)
    refine ⟨this, ?_⟩
    split
    · exact hal.2
    · exact this
  have hRne : R.start < R.stop → R.stop = h.stop := by
    rw [hRs, hRstop]; split <;> omega
  have hsrt := H.sorted
  rw [List.pairwise_append] at hsrt
  obtain ⟨sp1, sp2, sp3⟩ := hsrt
  obtain ⟨sp4, sp5⟩ := List.pairwise_cons.mp sp2
  have hnn := hn
  unfold IdsNodup at hnn
  rw [List.pairwise_append] at hnn
  obtain ⟨np1, np2, np3⟩ := hnn
  obtain ⟨np4, np5⟩ := List.pairwise_cons.mp np2
  clear hR
  -- facts about the unchanged holes
  have pre_mem : ∀ k ∈ pre, k ∈ pre ++ h :: post := fun k hk => by simp [hk]
  have post_mem : ∀ k ∈ post, k ∈ pre ++ h :: post := fun k hk => by simp [hk]
  have pre_apart : ∀ k ∈ pre, k.start < k.stop → k.stop + page ≤ s := fun k hk hne => by
    have := sp3 k hk h (by simp)
    rw [guardEnd_pos hne] at this; omega
  have post_apart : ∀ k ∈ post, e + page ≤ k.start := fun k hk => by
    have := sp4 k hk
    rw [hg] at this; omega
  by_cases hc : s - page > h.start
  · rw [if_pos hc]
    generalize hL : (⟨fresh, h.start, s - page⟩ : Hole) = L
    have hLid : L.id = fresh := by rw [← hL]
    have hLs : L.start = h.start := by rw [← hL]
    have hLe : L.stop = s - page := by rw [← hL]
    have hLg : L.guardEnd page = s := by
      rw [guardEnd_pos (by omega)]; omega
    clear hL
    have hLal : page ∣ L.start ∧ page ∣ L.stop := by
      rw [hLs, hLe]
      exact ⟨hal.1, Nat.dvd_sub hs (Nat.dvd_refl _)⟩
    have mem_iff : ∀ k, k ∈ pre ++ L :: R :: post ↔ k ∈ pre ∨ k = L ∨ k = R ∨ k ∈ post := by
      intro k; simp
    refine ⟨⟨?_, ?_, ?_, ?_⟩, ?_, ?_, ?_⟩
    · intro k hk
      rcases (mem_iff k).mp hk with hk | rfl | rfl | hk
      · exact H.order k (pre_mem k hk)
      · omega
      · omega
      · exact H.order k (post_mem k hk)
    · intro k hk
      rcases (mem_iff k).mp hk with hk | rfl | rfl | hk
      · exact H.aligned k (pre_mem k hk)
      · exact hLal
      · exact hRal
      · exact H.aligned k (post_mem k hk)
    · rw [List.pairwise_append]
      refine ⟨sp1, List.pairwise_cons.mpr ⟨?_, List.pairwise_cons.mpr ⟨?_, sp5⟩⟩, ?_⟩
      · intro k hk
        rcases List.mem_cons.mp hk with rfl | hk
        · omega
        · have := post_apart k hk; omega
      · intro k hk
        have := sp4 k hk
        omega
      · intro k hk j hj
        have := sp3 k hk h (by simp)
        rcases List.mem_cons.mp hj with rfl | hj
        · omega
        · rcases List.mem_cons.mp hj with rfl | hj
          · omega
          · exact sp3 k hk j (by simp [hj])
    · intro k hk hne r hr
      rcases List.mem_cons.mp hr with rfl | hr
      · unfold Apart
        rcases (mem_iff k).mp hk with hk | rfl | rfl | hk
        · left; exact pre_apart k hk hne
        · left; simp only; omega
        · right; simp only; omega
        · right; exact post_apart k hk
      · rcases (mem_iff k).mp hk with hk | rfl | rfl | hk
        · exact H.apart k (pre_mem k hk) hne r hr
        · have := H.apart h hmem hlt r hr
          unfold Apart at *; omega
        · have := H.apart h hmem hlt r hr
          have := hRne hne
          unfold Apart at *; omega
        · exact H.apart k (post_mem k hk) hne r hr
    · unfold IdsNodup
      rw [List.pairwise_append]
      refine ⟨np1, List.pairwise_cons.mpr ⟨?_, List.pairwise_cons.mpr ⟨?_, np5⟩⟩, ?_⟩
      · intro k hk
        rw [hLid]
        rcases List.mem_cons.mp hk with rfl | hk
        · rw [hRid]; exact (hfresh h hmem).symm
        · exact (hfresh k (post_mem k hk)).symm
      · intro k hk; rw [hRid]; exact np4 k hk
      · intro k hk j hj
        rcases List.mem_cons.mp hj with rfl | hj
        · rw [hLid]; exact hfresh k (pre_mem k hk)
        · rcases List.mem_cons.mp hj with rfl | hj
          · rw [hRid]; exact hn1 k hk
          · exact np3 k hk j (by simp [hj])
    · intro k hk
      rcases (mem_iff k).mp hk with hk | rfl | rfl | hk
      · left; exact pre_mem k hk
      · right; left; exact hLid
      · right; right; exact hRid
      · left; exact post_mem k hk
    · intro os oe prev O
      obtain ⟨pre', p, post', heq, hid, hpre', hpost'⟩ := O.here
      refine ⟨O.bound, O.order, ?_⟩
      rcases List.append_eq_append_iff.mp heq with ⟨t, ht1, ht2⟩ | ⟨t, ht1, ht2⟩
      · -- pre' = pre ++ t, h :: post = t ++ p :: post'
        cases t with
        | nil =>
          simp only [List.nil_append, List.cons.injEq] at ht2
          obtain ⟨rfl, rfl⟩ := ht2
          simp only [List.append_nil] at ht1; subst ht1
          refine ⟨pre' ++ [L], R, post, by simp, by rw [hRid, hid], ?_, hpost'⟩
          have hh := hpre' h (by simp)
          intro k hk
          simp only [List.mem_append, List.mem_singleton] at hk
          rcases hk with (hk | rfl) | rfl
          · exact hpre' k (by simp [hk])
          · omega
          · omega
        | cons t0 t =>
          simp only [List.cons_append, List.cons.injEq] at ht2
          obtain ⟨rfl, ht2⟩ := ht2
          refine ⟨pre ++ L :: R :: t, p, post', by simp [ht2], hid, ?_, hpost'⟩
          have hh := hpre' h (by simp [ht1])
          intro k hk
          simp only [List.mem_append, List.mem_cons, List.not_mem_nil, or_false] at hk
          rcases hk with (hk | rfl | rfl | hk) | rfl
          · exact hpre' k (by simp [ht1, hk])
          · omega
          · omega
          · exact hpre' k (by simp [ht1, hk])
          · exact hpre' k (by simp)
      · -- pre = pre' ++ t, p :: post' = t ++ h :: post
        cases t with
        | nil =>
          simp only [List.nil_append, List.cons.injEq] at ht2
          obtain ⟨rfl, rfl⟩ := ht2
          simp only [List.append_nil] at ht1; subst ht1
          refine ⟨pre ++ [L], R, post', by simp, by rw [hRid, hid], ?_, hpost'⟩
          have hh := hpre' p (by simp)
          intro k hk
          simp only [List.mem_append, List.mem_singleton] at hk
          rcases hk with (hk | rfl) | rfl
          · exact hpre' k (by simp [hk])
          · omega
          · omega
        | cons t0 t =>
          simp only [List.cons_append, List.cons.injEq] at ht2
          obtain ⟨rfl, ht2⟩ := ht2
          subst ht2
          refine ⟨pre', p, t ++ L :: R :: post, by simp [ht1], hid, hpre', ?_⟩
          have hh := hpost' h (by simp)
          intro k hk
          simp only [List.mem_append, List.mem_cons] at hk
          rcases hk with hk | rfl | rfl | hk
          · exact hpost' k (by simp [hk])
          · omega
          · omega
          · exact hpost' k (by simp [hk])
  · rw [if_neg hc]
    have mem_iff : ∀ k, k ∈ pre ++ R :: post ↔ k ∈ pre ∨ k = R ∨ k ∈ post := by
      intro k; simp
    refine ⟨⟨?_, ?_, ?_, ?_⟩, ?_, ?_, ?_⟩
    · intro k hk
      rcases (mem_iff k).mp hk with hk | rfl | hk
      · exact H.order k (pre_mem k hk)
      · omega
      · exact H.order k (post_mem k hk)
    · intro k hk
      rcases (mem_iff k).mp hk with hk | rfl | hk
      · exact H.aligned k (pre_mem k hk)
      · exact hRal
      · exact H.aligned k (post_mem k hk)
    · rw [List.pairwise_append]
      refine ⟨sp1, List.pairwise_cons.mpr ⟨?_, sp5⟩, ?_⟩
      · intro k hk
        have := sp4 k hk
        omega
      · intro k hk j hj
        have := sp3 k hk h (by simp)
        rcases List.mem_cons.mp hj with rfl | hj
        · omega
        · exact sp3 k hk j (by simp [hj])
    · intro k hk hne r hr
      rcases List.mem_cons.mp hr with rfl | hr
      · unfold Apart
        rcases (mem_iff k).mp hk with hk | rfl | hk
        · left; exact pre_apart k hk hne
        · right; simp only; omega
        · right; exact post_apart k hk
      · rcases (mem_iff k).mp hk with hk | rfl | hk
        · exact H.apart k (pre_mem k hk) hne r hr
        · have := H.apart h hmem hlt r hr
          have := hRne hne
          unfold Apart at *; omega
        · exact H.apart k (post_mem k hk) hne r hr
    · unfold IdsNodup
      rw [List.pairwise_append]
      refine ⟨np1, List.pairwise_cons.mpr ⟨?_, np5⟩, ?_⟩
      · intro k hk; rw [hRid]; exact np4 k hk
      · intro k hk j hj
        rcases List.mem_cons.mp hj with rfl | hj
        · rw [hRid]; exact hn1 k hk
        · exact np3 k hk j (by simp [hj])
    · intro k hk
      rcases (mem_iff k).mp hk with hk | rfl | hk
      · left; exact pre_mem k hk
      · right; right; exact hRid
      · left; exact post_mem k hk
    · intro os oe prev O
      obtain ⟨pre', p, post', heq, hid, hpre', hpost'⟩ := O.here
      refine ⟨O.bound, O.order, ?_⟩
      rcases List.append_eq_append_iff.mp heq with ⟨t, ht1, ht2⟩ | ⟨t, ht1, ht2⟩
      · cases t with
        | nil =>
          simp only [List.nil_append, List.cons.injEq] at ht2
          obtain ⟨rfl, rfl⟩ := ht2
          simp only [List.append_nil] at ht1; subst ht1
          refine ⟨pre', R, post, by simp, by rw [hRid, hid], ?_, hpost'⟩
          have hh := hpre' h (by simp)
          intro k hk
          simp only [List.mem_append, List.mem_singleton] at hk
          rcases hk with hk | rfl
          · exact hpre' k (by simp [hk])
          · omega
        | cons t0 t =>
          simp only [List.cons_append, List.cons.injEq] at ht2
          obtain ⟨rfl, ht2⟩ := ht2
          refine ⟨pre ++ R :: t, p, post', by simp [ht2], hid, ?_, hpost'⟩
          have hh := hpre' h (by simp [ht1])
          intro k hk
          simp only [List.mem_append, List.mem_cons, List.not_mem_nil, or_false] at hk
          rcases hk with (hk | rfl | hk) | rfl
          · exact hpre' k (by simp [ht1, hk])
          · omega
          · exact hpre' k (by simp [ht1, hk])
          · exact hpre' k (by simp)
      · cases t with
        | nil =>
          simp only [List.nil_append, List.cons.injEq] at ht2
          obtain ⟨rfl, rfl⟩ := ht2
          simp only [List.append_nil] at ht1; subst ht1
          refine ⟨pre, R, post', by simp, by rw [hRid, hid], ?_, hpost'⟩
          have hh := hpre' p (by simp)
          intro k hk
          simp only [List.mem_append, List.mem_singleton] at hk
          rcases hk with hk | rfl
          · exact hpre' k (by simp [hk])
          · omega
        | cons t0 t =>
          simp only [List.cons_append, List.cons.injEq] at ht2
          obtain ⟨rfl, ht2⟩ := ht2
          subst ht2
          refine ⟨pre', p, t ++ R :: post, by simp [ht1], hid, hpre', ?_⟩
          have hh := hpost' h (by simp)
          intro k hk
          simp only [List.mem_append, List.mem_cons] at hk
          rcases hk with hk | rfl | hk
          · exact hpost' k (by simp [hk])
          · omega
          · exact hpost' k (by simp [hk])

end Verif
