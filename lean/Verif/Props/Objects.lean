import Verif.Model.Process
/-
C56: the mappings of the target are grouped into objects correctly.
-/
namespace Verif

theorem updateLast_some {p : Obj → Bool} {f : Obj → Obj} : ∀ {os os' : List Obj}, updateLast p f os = some os' →
    ∃ l o r, os = l ++ o :: r ∧ p o = true ∧ os' = l ++ f o :: r ∧ ∀ x ∈ r, p x = false := by
  intro os
  induction os with
  | nil => intro os' h; simp [updateLast] at h
  | cons o os ih =>
    intro os' h
    unfold updateLast at h
    cases hu : updateLast p f os with
    | some q =>
      rw [hu] at h
      simp only [Option.some.injEq] at h
      obtain ⟨l, x, r, h1, h2, h3, h4⟩ := ih hu
      exact ⟨o :: l, x, r, by simp [h1], h2, by simp [← h, h3], h4⟩
    | none =>
      rw [hu] at h
      dsimp only at h
      split at h
      · rename_i hp
        simp only [Option.some.injEq] at h
        refine ⟨[], o, os, rfl, hp, by simp [← h], ?_⟩
        clear ih h
        induction os with
        | nil => simp
        | cons y ys ih2 =>
          unfold updateLast at hu
          cases hv : updateLast p f ys with
          | some q => rw [hv] at hu; simp at hu
          | none =>
            rw [hv] at hu
            dsimp only at hu
            split at hu
            · simp at hu
            · rename_i hy
              intro x hx
              rcases List.mem_cons.mp hx with rfl | hx
              · simpa using hy
              · exact ih2 hv x hx
      · simp at h

theorem updateLast_none {p : Obj → Bool} {f : Obj → Obj} : ∀ {os : List Obj}, updateLast p f os = none →
    ∀ x ∈ os, p x = false := by
  intro os
  induction os with
  | nil => simp
  | cons o os ih =>
    intro h
    unfold updateLast at h
    cases hu : updateLast p f os with
    | some q => rw [hu] at h; simp at h
    | none =>
      rw [hu] at h
      dsimp only at h
      split at h
      · simp at h
      · rename_i hp
        intro x hx
        rcases List.mem_cons.mp hx with rfl | hx
        · simpa using hp
        · exact ih hu x hx

/-- What the kernel guarantees about a memory map, as far as it matters here: mappings in address order, a
patch mapping is anonymous (no device), no anonymous or special mapping is called `[kpatch-...]`. -/
structure MapsOk (type : Mapping → ObjType) (maps : List Mapping) : Prop where
  sorted : maps.Pairwise fun v w => v.start < w.start
  anon : ∀ v ∈ maps, ∀ buf, type v = .kpatch buf → v.dev = 0
  names : ∀ v ∈ maps, v.dev = 0 → ∀ buf, v.name ≠ patchName buf

/-- The state after a prefix of the map. -/
structure Grouped (type : Mapping → ObjType) (done : List Mapping) (objs : List Obj) : Prop where
  perm : (objs.flatMap (·.vmas)).Perm done
  sub : ∀ o ∈ objs, o.vmas.Sublist done
  patch : ∀ o ∈ objs, o.isPatch = true → o.dev = 0 ∧ o.name = patchName o.hdr ∧ ∃ v, o.vmas = [v] ∧ type v = .kpatch o.hdr
  plain : ∀ o ∈ objs, o.isPatch = false → ∀ v ∈ o.vmas, (∀ buf, type v ≠ .kpatch buf) ∧
    (v.dev ≠ 0 → o.dev = v.dev ∧ o.inode = v.inode)
  uniq : objs.Pairwise fun o p => ¬ (o.dev ≠ 0 ∧ o.inode ≠ 0 ∧ o.dev = p.dev ∧ o.inode = p.inode)

theorem grouped_append {type : Mapping → ObjType} {done : List Mapping} {objs : List Obj} {v : Mapping}
    (G : Grouped type done objs)
    (hnew : v.dev ≠ 0 → v.inode ≠ 0 → ∀ o ∈ objs, ¬ (o.dev = v.dev ∧ o.inode = v.inode))
    (hdev : ∀ buf, type v = .kpatch buf → v.dev = 0) :
    Grouped type (done ++ [v]) (objs ++ [newObject v (type v)]) := by
  have hv : (newObject v (type v)).vmas = [v] := by unfold newObject; split <;> rfl
  have hd : (newObject v (type v)).dev = v.dev := by unfold newObject; split <;> rfl
  have hi : (newObject v (type v)).inode = v.inode := by unfold newObject; split <;> rfl
  refine ⟨?_, ?_, ?_, ?_, ?_⟩
  · simp only [List.flatMap_append, List.flatMap_cons, List.flatMap_nil, List.append_nil, hv]
    exact G.perm.append_right _
  · intro o ho
    rcases List.mem_append.mp ho with ho | ho
    · exact (G.sub o ho).trans (List.sublist_append_left ..)
    · simp only [List.mem_singleton] at ho
      subst ho
      rw [hv]
      exact List.sublist_append_right ..
  · intro o ho hp
    rcases List.mem_append.mp ho with ho | ho
    · exact G.patch o ho hp
    · simp only [List.mem_singleton] at ho
      subst ho
      cases ht : type v with
      | kpatch buf => exact ⟨hdev buf ht, rfl, v, rfl, ht⟩
      | elf => rw [ht] at hp; simp [newObject] at hp
      | unknown => rw [ht] at hp; simp [newObject] at hp
  · intro o ho hp
    rcases List.mem_append.mp ho with ho | ho
    · exact G.plain o ho hp
    · simp only [List.mem_singleton] at ho
      subst ho
      intro w hw
      rw [hv] at hw
      simp only [List.mem_singleton] at hw
      subst hw
      refine ⟨?_, fun _ => ⟨hd, hi⟩⟩
      intro buf hb
      rw [hb] at hp
      simp [newObject] at hp
  · rw [List.pairwise_append]
    refine ⟨G.uniq, by simp, ?_⟩
    intro o ho q hq
    simp only [List.mem_singleton] at hq
    subst hq
    rw [hd, hi]
    rintro ⟨h1, h2, h3, h4⟩
    exact hnew (by rw [← h3]; exact h1) (by rw [← h4]; exact h2) o ho ⟨h3, h4⟩

theorem grouped_update {type : Mapping → ObjType} {done : List Mapping} {l r : List Obj} {o : Obj} {v : Mapping}
    (G : Grouped type done (l ++ o :: r)) (hs : sameObject v o = true) (hnk : ∀ buf, type v ≠ .kpatch buf)
    (hname : v.dev = 0 → ∀ buf, v.name ≠ patchName buf) (hfresh : ∀ w ∈ done, w.start < v.start) :
    Grouped type (done ++ [v]) (l ++ o.addVma v :: r) := by
  have ho : o ∈ l ++ o :: r := by simp
  have hvm : o.addVma v = { o with vmas := o.vmas ++ [v] } := by
    unfold Obj.addVma
    rw [if_neg]
    simp only [List.any_eq_true, decide_eq_true_eq, not_exists, not_and]
    intro w hw h1
    have := hfresh w ((G.sub o ho).subset hw)
    omega
  have hnp : o.isPatch = false := by
    cases hp : o.isPatch with
    | false => rfl
    | true =>
      obtain ⟨p1, p2, -⟩ := G.patch o ho hp
      unfold sameObject at hs
      simp only [Bool.or_eq_true, Bool.and_eq_true, decide_eq_true_eq] at hs
      rcases hs with ⟨⟨⟨h1, -⟩, h3⟩, -⟩ | ⟨h1, h2⟩
      · exact absurd (h3.symm.trans p1) h1
      · exact absurd (h2.symm.trans p2) (hname h1 _)
  rw [hvm]
  have hmem : ∀ {x : Obj}, x ∈ l ++ { o with vmas := o.vmas ++ [v] } :: r →
      x ∈ l ++ o :: r ∨ x = { o with vmas := o.vmas ++ [v] } := by
    intro x hx
    simp only [List.mem_append, List.mem_cons] at hx ⊢
    grind
  refine ⟨?_, ?_, ?_, ?_, ?_⟩
  · have := G.perm
    simp only [List.flatMap_append, List.flatMap_cons] at this ⊢
    refine List.Perm.trans ?_ (this.append_right [v])
    simp only [List.append_assoc]
    refine List.Perm.append_left _ (List.Perm.append_left _ ?_)
    exact List.perm_append_comm
  · intro x hx
    rcases hmem hx with hx | rfl
    · exact (G.sub x hx).trans (List.sublist_append_left ..)
    · exact (G.sub o ho).append (List.Sublist.refl _)
  · intro x hx hp
    rcases hmem hx with hx | rfl
    · exact G.patch x hx hp
    · exact absurd hp (by simp [hnp])
  · intro x hx hp
    rcases hmem hx with hx | rfl
    · exact G.plain x hx hp
    · intro w hw
      simp only [List.mem_append, List.mem_singleton] at hw
      rcases hw with hw | rfl
      · exact G.plain o ho hnp w hw
      · refine ⟨hnk, fun h => ?_⟩
        unfold sameObject at hs
        simp only [Bool.or_eq_true, Bool.and_eq_true, decide_eq_true_eq] at hs
        rcases hs with ⟨⟨⟨h1, -⟩, h3⟩, h4⟩ | ⟨h1, h2⟩
        · exact ⟨h3, h4⟩
        · exact absurd h1 h
  · have := G.uniq
    rw [List.pairwise_append, List.pairwise_cons] at this ⊢
    obtain ⟨u1, ⟨u2, u3⟩, u4⟩ := this
    refine ⟨u1, ⟨fun q hq => u2 q hq, u3⟩, ?_⟩
    intro x hx q hq
    rcases List.mem_cons.mp hq with rfl | hq
    · exact u4 x hx o (by simp)
    · exact u4 x hx q (by simp [hq])

theorem grouped_step {type : Mapping → ObjType} {done : List Mapping} {objs : List Obj} {v : Mapping}
    (G : Grouped type done objs) (hfresh : ∀ w ∈ done, w.start < v.start)
    (hdev : ∀ buf, type v = .kpatch buf → v.dev = 0) (hname : v.dev = 0 → ∀ buf, v.name ≠ patchName buf) :
    Grouped type (done ++ [v]) (addObjectVma type objs v) := by
  unfold addObjectVma
  cases ht : type v with
  | kpatch buf =>
    dsimp only
    rw [← ht]
    exact grouped_append G (fun h => absurd (hdev buf ht) h) hdev
  | elf =>
    dsimp only
    cases hu : updateLast (sameObject v) (·.addVma v) objs with
    | some objs' =>
      obtain ⟨l, o, r, h1, h2, h3, -⟩ := updateLast_some hu
      subst h1; subst h3
      exact grouped_update G h2 (by simp [ht]) hname hfresh
    | none =>
      dsimp only
      rw [← ht]
      refine grouped_append G ?_ hdev
      rintro h1 h2 o ho ⟨h3, h4⟩
      have := updateLast_none hu o ho
      simp [sameObject, h1, h2, h3, h4] at this
  | unknown =>
    dsimp only
    cases hu : updateLast (sameObject v) (·.addVma v) objs with
    | some objs' =>
      obtain ⟨l, o, r, h1, h2, h3, -⟩ := updateLast_some hu
      subst h1; subst h3
      exact grouped_update G h2 (by simp [ht]) hname hfresh
    | none =>
      dsimp only
      rw [← ht]
      refine grouped_append G ?_ hdev
      rintro h1 h2 o ho ⟨h3, h4⟩
      have := updateLast_none hu o ho
      simp [sameObject, h1, h2, h3, h4] at this

theorem grouped_fold {type : Mapping → ObjType} : ∀ (rest done : List Mapping) (objs : List Obj),
    MapsOk type (done ++ rest) → Grouped type done objs →
    Grouped type (done ++ rest) (rest.foldl (addObjectVma type) objs) := by
  intro rest
  induction rest with
  | nil => intro done objs _ G; simpa using G
  | cons v rest ih =>
    intro done objs M G
    have hv : v ∈ done ++ v :: rest := by simp
    have hs := M.sorted
    rw [List.pairwise_append] at hs
    have := ih (done ++ [v]) (addObjectVma type objs v) (by simpa using M)
      (grouped_step G (fun w hw => hs.2.2 w hw v (by simp)) (M.anon v hv) (M.names v hv))
    simpa using this

theorem parseMaps_grouped {type : Mapping → ObjType} {maps : List Mapping} (M : MapsOk type maps) :
    Grouped type maps (parseMaps type maps) := by
  have := grouped_fold maps [] [] (by simpa using M) ⟨by simp, by simp, by simp, by simp, by simp⟩
  simpa [parseMaps] using this

/-- C56.  For every memory map the kernel can show:
* the areas of all objects together are the mappings of the target, each exactly once;
* the areas of an object are in address order;
* the mappings of one file (same device and inode) are in one object;
* an applied patch is an object with that single mapping, and objects marked as patches are such. -/
theorem C56_mappings_grouped (type : Mapping → ObjType) (maps : List Mapping) (M : MapsOk type maps) :
    ((parseMaps type maps).flatMap (·.vmas)).Perm maps ∧
    (∀ o ∈ parseMaps type maps, o.vmas.Pairwise fun v w => v.start < w.start) ∧
    (∀ v ∈ maps, ∀ w ∈ maps, v.dev ≠ 0 → v.inode ≠ 0 → w.dev = v.dev → w.inode = v.inode →
      ∃ o ∈ parseMaps type maps, v ∈ o.vmas ∧ w ∈ o.vmas) ∧
    (∀ v ∈ maps, ∀ buf, type v = .kpatch buf →
      ∃ o ∈ parseMaps type maps, o.isPatch = true ∧ o.vmas = [v] ∧ o.hdr = buf) ∧
    (∀ o ∈ parseMaps type maps, o.isPatch = true → ∃ v, o.vmas = [v] ∧ type v = .kpatch o.hdr) := by
  have G := parseMaps_grouped M
  have hin : ∀ v ∈ maps, ∃ o ∈ parseMaps type maps, v ∈ o.vmas := by
    intro v hv
    have := (G.perm.mem_iff (a := v)).mpr hv
    simpa using this
  refine ⟨G.perm, fun o ho => M.sorted.sublist (G.sub o ho), ?_, ?_, fun o ho hp => (G.patch o ho hp).2.2⟩
  · intro v hv w hw hd hi e1 e2
    obtain ⟨o, ho, hvo⟩ := hin v hv
    obtain ⟨p, hp, hwp⟩ := hin w hw
    have key : ∀ q ∈ parseMaps type maps, ∀ u ∈ q.vmas, u.dev ≠ 0 → u ∈ maps → q.dev = u.dev ∧ q.inode = u.inode := by
      intro q hq u hu hud hum
      cases hqp : q.isPatch with
      | false => exact (G.plain q hq hqp u hu).2 hud
      | true =>
        obtain ⟨-, -, x, hx, hty⟩ := G.patch q hq hqp
        rw [hx] at hu
        simp only [List.mem_singleton] at hu
        subst hu
        exact absurd (M.anon u hum _ hty) hud
    obtain ⟨k1, k2⟩ := key o ho v hvo hd hv
    obtain ⟨k3, k4⟩ := key p hp w hwp (by omega) hw
    have : o = p := by
      by_cases hop : o = p
      · exact hop
      · have hu := G.uniq
        obtain ⟨i, hi', rfl⟩ := List.getElem_of_mem ho
        obtain ⟨j, hj, rfl⟩ := List.getElem_of_mem hp
        rw [List.pairwise_iff_getElem] at hu
        rcases Nat.lt_trichotomy i j with h | h | h
        · exact absurd ⟨by omega, by omega, by omega, by omega⟩ (hu i j hi' hj h)
        · subst h; exact absurd rfl hop
        · exact absurd ⟨by omega, by omega, by omega, by omega⟩ (hu j i hj hi' h)
    subst this
    exact ⟨o, ho, hvo, hwp⟩
  · intro v hv buf hb
    obtain ⟨o, ho, hvo⟩ := hin v hv
    cases hop : o.isPatch with
    | false => exact absurd hb ((G.plain o ho hop v hvo).1 buf)
    | true =>
      obtain ⟨-, -, x, hx, hty⟩ := G.patch o ho hop
      rw [hx] at hvo
      simp only [List.mem_singleton] at hvo
      subst hvo
      rw [hb] at hty
      simp only [ObjType.kpatch.injEq] at hty
      exact ⟨o, ho, hop, hx, hty.symm⟩

/-- A map with a program of two mappings, an applied patch, the heap and the program's data again. -/
def exMaps : List Mapping :=
  [⟨0x1000, 0x2000, 5, 8, 77, "prog"⟩, ⟨0x3000, 0x5000, 5, 0, 0, "[anonymous]"⟩, ⟨0x8000, 0x9000, 3, 8, 77, "prog"⟩,
   ⟨0x9000, 0xa000, 3, 0, 0, "[heap]"⟩]

/-- The patch is the mapping at 0x3000. -/
def exType (v : Mapping) : ObjType :=
  if v.start = 0x3000 then .kpatch (List.replicate 504 0) else if v.start = 0x1000 then .elf else .unknown

example : MapsOk exType exMaps where
  sorted := by decide
  anon := by
    intro v hv buf h
    simp only [exMaps, List.mem_cons, List.not_mem_nil, or_false] at hv
    rcases hv with rfl | rfl | rfl | rfl <;> first | rfl | simp [exType] at h
  names := by
    intro v hv hd buf h
    have h2 := congrArg String.toList h
    simp only [patchName, String.toList_append] at h2
    simp only [exMaps, List.mem_cons, List.not_mem_nil, or_false] at hv
    rcases hv with rfl | rfl | rfl | rfl
    · simp at hd
    · simp at h2
    · simp at hd
    · simp at h2

example : (parseMaps exType exMaps).map (·.vmas.map (·.start)) = [[0x1000, 0x8000], [0x3000], [0x9000]] := by
  decide +kernel

end Verif
