import Verif.Proof.GenPatch
/-
What the lists of symbols do to the analysis: the passes over the functions that set the flags `ignore` and `unlink`.
-/
namespace Verif

variable [AsmTarget]

/-- The blocks stay, flags are only set. -/
structure Evolves (s s' : GSt) : Prop where
  base : s'.f1.basename = s.f1.basename
  old : s'.f0.bs = s.f0.bs
  new : ∀ q b', s'.f1.at q = some b' → ∃ b, s.f1.at q = some b ∧ b'.pair = b.pair ∧ b'.human = b.human ∧ b'.ty = b.ty ∧
    b'.adapted = b.adapted ∧ (b.ignore = true → b'.ignore = true) ∧ (b.unlink = true → b'.unlink = true)

theorem Evolves.refl (s : GSt) : Evolves s s := ⟨rfl, rfl, fun _ b h => ⟨b, h, rfl, rfl, rfl, rfl, id, id⟩⟩

theorem Evolves.trans {s t u : GSt} (h : Evolves s t) (h' : Evolves t u) : Evolves s u := by
  refine ⟨h'.base.trans h.base, h'.old.trans h.old, fun q b hb => ?_⟩
  obtain ⟨c, hc, e1, e2, e3, e4, e5, e6⟩ := h'.new q b hb
  obtain ⟨d, hd, k1, k2, k3, k4, k5, k6⟩ := h.new q c hc
  exact ⟨d, hd, e1.trans k1, e2.trans k2, e3.trans k3, e4.trans k4, e5 ∘ k5, e6 ∘ k6⟩

theorem Evolves.at0 {s s' : GSt} (h : Evolves s s') (q : Nat) : s'.f0.at q = s.f0.at q := by
  unfold GFile.at
  rw [h.old]

theorem upd_at (f : GFile) (s q : Nat) (g : GBlock → GBlock) (hg : ∀ b, (g b).start = b.start) :
    (f.upd s g).at q = (f.at q).map fun b => if b.start = s then g b else b := by
  unfold GFile.at GFile.upd
  dsimp only
  rw [List.find?_map]
  congr 1
  congr 1
  funext b
  simp only [Function.comp]
  by_cases h : b.start = s <;> simp [h, hg]

theorem Evolves.flag {s : GSt} {p : Nat} {g : GBlock → GBlock} (hg : ∀ b, (g b).start = b.start ∧ (g b).pair = b.pair ∧
    (g b).human = b.human ∧ (g b).ty = b.ty ∧ (g b).adapted = b.adapted ∧ (b.ignore = true → (g b).ignore = true) ∧
    (b.unlink = true → (g b).unlink = true)) : Evolves s { s with f1 := s.f1.upd p g } := by
  refine ⟨rfl, rfl, fun q b' h => ?_⟩
  have h : (s.f1.upd p g).at q = some b' := h
  rw [upd_at _ _ _ _ fun b => (hg b).1, Option.map_eq_some_iff] at h
  obtain ⟨b, hb, rfl⟩ := h
  refine ⟨b, hb, ?_⟩
  split
  · exact (hg b).2
  · exact ⟨rfl, rfl, rfl, rfl, id, id⟩

theorem Evolves.ren0 {s s' : GSt} {r : Renames} (h : s' = { s with f0 := s.f0.withRen r }) : Evolves s s' := by
  subst h
  exact ⟨rfl, rfl, fun _ b h => ⟨b, h, rfl, rfl, rfl, rfl, id, id⟩⟩

theorem Evolves.ren1 {s s' : GSt} {r : Renames} (h : s' = { s with f1 := s.f1.withRen r }) : Evolves s s' := by
  subst h
  exact ⟨rfl, rfl, fun _ b h => ⟨b, h, rfl, rfl, rfl, rfl, id, id⟩⟩

theorem del0_evolves {s s' : GSt} {x : Kpstr} (h : s.del0 x = some s') : Evolves s s' := by
  rw [GSt.del0, Option.map_eq_some_iff] at h
  obtain ⟨r, _, h⟩ := h
  exact .ren0 h.symm

theorem del1_evolves {s s' : GSt} {x : Kpstr} (h : s.del1 x = some s') : Evolves s s' := by
  rw [GSt.del1, Option.map_eq_some_iff] at h
  obtain ⟨r, _, h⟩ := h
  exact .ren1 h.symm

theorem add0_evolves {s s' : GSt} {x y : Kpstr} (h : s.add0 x y = some s') : Evolves s s' := by
  rw [GSt.add0, Option.map_eq_some_iff] at h
  obtain ⟨r, _, h⟩ := h
  exact .ren0 h.symm

theorem add1_evolves {s s' : GSt} {x y : Kpstr} (h : s.add1 x y = some s') : Evolves s s' := by
  rw [GSt.add1, Option.map_eq_some_iff] at h
  obtain ⟨r, _, h⟩ := h
  exact .ren1 h.symm

/-- The lists are obeyed for the function at a line. -/
def Obeyed (o : GenOpts) (p : Nat) (s : GSt) : Prop :=
  ∀ b, s.f1.at p = some b → (b.pair.bind s.f0.at).isSome →
    (ignoredSym o s.f1.basename b.human b.ty = true → b.ignore = true) ∧
    (inSyms s.f1.basename b.human o.unlinkSyms = true → b.unlink = true)

theorem Obeyed.evolves {o : GenOpts} {p : Nat} {s s' : GSt} (h : Obeyed o p s) (e : Evolves s s') : Obeyed o p s' := by
  intro b' hb' hp
  obtain ⟨b, hb, e1, e2, e3, _, e5, e6⟩ := e.new p b' hb'
  have hp : (b.pair.bind s.f0.at).isSome := by
    rw [e1] at hp
    cases hq : b.pair with
    | none => rw [hq] at hp; simp at hp
    | some q => rw [hq] at hp; simpa [e.at0] using hp
  rw [e.base, e2, e3]
  exact ⟨e5 ∘ (h b hb hp).1, e6 ∘ (h b hb hp).2⟩

theorem funcListStep_obeys {o : GenOpts} {s s' : GSt} {p : Nat} (h : funcListStep o s p = some s') :
    Evolves s s' ∧ Obeyed o p s' := by
  unfold funcListStep at h
  split at h
  · rename_i hn
    cases h
    exact ⟨.refl _, fun b hb => by rw [hn] at hb; cases hb⟩
  rename_i b1 hb1
  split at h
  · rename_i hn
    cases h
    refine ⟨.refl _, fun b hb hp => ?_⟩
    rw [hb1] at hb
    cases hb
    rw [hn] at hp
    cases hp
  rename_i b0 hb0
  rw [Option.map_eq_some_iff] at h
  obtain ⟨s1, h1, h⟩ := h
  have hstart : b1.start = p := by
    have := List.find?_some hb1
    simpa using this
  have first : Evolves s s1 ∧ ∃ c, s1.f1.at p = some c ∧ c.human = b1.human ∧ c.ty = b1.ty ∧
      (ignoredSym o s.f1.basename b1.human b1.ty = true → c.ignore = true) := by
    split at h1
    · rw [Option.bind_eq_some_iff] at h1
      obtain ⟨t1, e1, h1⟩ := h1
      rw [Option.map_eq_some_iff] at h1
      obtain ⟨t2, e2, rfl⟩ := h1
      have ev := (del1_evolves e1).trans (del0_evolves e2)
      refine ⟨ev.trans (.flag fun b => ⟨rfl, rfl, rfl, rfl, rfl, fun _ => rfl, id⟩), ?_⟩
      have ht : t2.f1.at p = some b1 := by
        rw [GSt.del1, Option.map_eq_some_iff] at e1
        obtain ⟨r1, _, rfl⟩ := e1
        rw [GSt.del0, Option.map_eq_some_iff] at e2
        obtain ⟨r2, _, rfl⟩ := e2
        exact hb1
      refine ⟨{ b1 with ignore := true }, ?_, rfl, rfl, fun _ => rfl⟩
      show (t2.f1.upd p fun b => { b with ignore := true }).at p = _
      rw [upd_at _ _ _ _ (by intro; rfl), ht, Option.map_some, if_pos hstart]
    · rename_i hno
      cases h1
      exact ⟨.refl _, b1, hb1, rfl, rfl, fun hc => absurd hc hno⟩
  obtain ⟨ev, c, hc, e1, e2, e3⟩ := first
  have hcs : c.start = p := by
    have := List.find?_some hc
    simpa using this
  split at h
  · rename_i hu
    subst h
    refine ⟨ev.trans (.flag fun b => ⟨rfl, rfl, rfl, rfl, rfl, id, fun _ => rfl⟩), fun b hb _ => ?_⟩
    have hb : (s1.f1.upd p fun b => { b with unlink := true }).at p = some b := hb
    rw [upd_at _ _ _ _ (by intro; rfl), hc, Option.map_some, if_pos hcs] at hb
    cases hb
    refine ⟨?_, fun _ => rfl⟩
    show ignoredSym o s1.f1.basename c.human c.ty = true → c.ignore = true
    rw [ev.base, e1, e2]
    exact e3
  · rename_i hu
    subst h
    refine ⟨ev, fun b hb _ => ?_⟩
    rw [hc] at hb
    cases hb
    rw [e1, e2]
    refine ⟨?_, fun h => absurd h hu⟩
    rw [ev.base]
    exact e3

theorem funcLists_obey {o : GenOpts} {l : List Nat} {s s' : GSt} (h : l.foldlM (funcListStep o) s = some s') :
    Evolves s s' ∧ ∀ p ∈ l, Obeyed o p s' := by
  induction l generalizing s with
  | nil => cases h; exact ⟨.refl _, fun _ h => absurd h (by simp)⟩
  | cons p l ih =>
    rw [List.foldlM_cons] at h
    obtain ⟨s1, h1, h⟩ := Option.bind_eq_some_iff.mp h
    obtain ⟨e1, ob⟩ := funcListStep_obeys h1
    obtain ⟨e2, obs⟩ := ih h
    -- later steps only set flags
    refine ⟨e1.trans e2, fun q hq => ?_⟩
    rcases List.mem_cons.mp hq with rfl | hq
    · exact ob.evolves e2
    · exact obs q hq

/-- A function at a line that must be adapted is so, or is not used. -/
def Adapted (o : GenOpts) (p : Nat) (x : GSt × Bool) : Prop :=
  x.2 = true ∨ ∀ b, x.1.f1.at p = some b → (b.pair.bind x.1.f0.at).isSome →
    b.ignore = true ∨ b.adapted.getD (o.uninit p) = true ∨ inSyms x.1.f1.basename b.human o.mustAdapt = false

theorem Adapted.evolves {o : GenOpts} {p : Nat} {x y : GSt × Bool} (h : Adapted o p x) (e : Evolves x.1 y.1)
    (hb : x.2 = true → y.2 = true) : Adapted o p y := by
  rcases h with h | h
  · exact Or.inl (hb h)
  · right
    intro b' hb' hp
    obtain ⟨b, hb, e1, e2, e3, e4, e5, e6⟩ := e.new p b' hb'
    have hp : (b.pair.bind x.1.f0.at).isSome := by
      rw [e1] at hp
      cases hq : b.pair with
      | none => rw [hq] at hp; simp at hp
      | some q => rw [hq] at hp; simpa [e.at0] using hp
    rw [e.base, e2, e4]
    rcases h b hb hp with h | h | h
    · exact Or.inl (e5 h)
    · exact Or.inr (Or.inl h)
    · exact Or.inr (Or.inr h)

theorem funcSameStep_adapted {o : GenOpts} {x y : GSt × Bool} {p : Nat} (h : funcSameStep o x p = some y) :
    Evolves x.1 y.1 ∧ (x.2 = true → y.2 = true) ∧ Adapted o p y := by
  obtain ⟨s, bad⟩ := x
  unfold funcSameStep at h
  dsimp only at h ⊢
  split at h
  · rename_i hn
    cases h
    exact ⟨.refl _, id, Or.inr fun b hb => by rw [hn] at hb; cases hb⟩
  rename_i b1 hb1
  split at h
  · rename_i hn
    cases h
    refine ⟨.refl _, id, Or.inr fun b hb hp => ?_⟩
    dsimp only at hb hp
    rw [hb1] at hb
    cases hb
    rw [hn] at hp
    cases hp
  rename_i b0 hb0
  have hstart : b1.start = p := by
    have := List.find?_some hb1
    simpa using this
  split at h
  · rename_i hig
    cases h
    refine ⟨.refl _, id, Or.inr fun b hb _ => Or.inl ?_⟩
    dsimp only at hb
    rw [hb1] at hb
    cases hb
    exact hig
  split at h
  · rw [Option.bind_eq_some_iff] at h
    obtain ⟨s1, e1, h⟩ := h
    rw [Option.bind_eq_some_iff] at h
    obtain ⟨s2, e2, h⟩ := h
    rw [Option.bind_eq_some_iff] at h
    obtain ⟨s3, e3, h⟩ := h
    rw [Option.map_eq_some_iff] at h
    obtain ⟨s4, e4, rfl⟩ := h
    have ev := ((del0_evolves e1).trans (del1_evolves e2)).trans ((add0_evolves e3).trans (add1_evolves e4))
    refine ⟨ev.trans (.flag fun b => ⟨rfl, rfl, rfl, rfl, rfl, fun _ => rfl, id⟩), id, Or.inr fun b hb _ => Or.inl ?_⟩
    have hb : (s4.f1.upd p fun b => { b with ignore := true }).at p = some b := hb
    rw [upd_at _ _ _ _ (by intro; rfl), Option.map_eq_some_iff] at hb
    obtain ⟨c, hc, rfl⟩ := hb
    have hcs : c.start = p := by
      have := List.find?_some hc
      simpa using this
    rw [if_pos hcs]
  · rw [Option.map_eq_some_iff] at h
    obtain ⟨f, e1, rfl⟩ := h
    obtain ⟨r, rfl⟩ := newLabelsLoop_frame _ _ _ _ e1
    refine ⟨.ren1 rfl, fun hb => by dsimp only at hb ⊢; rw [hb]; rfl, ?_⟩
    cases hbad : bad || (!b1.adapted.getD (o.uninit p) && inSyms s.f1.basename b1.human o.mustAdapt) with
    | true => exact Or.inl rfl
    | false =>
      right
      intro b hb _
      have hb : s.f1.at p = some b := hb
      rw [hb1] at hb
      cases hb
      right
      rw [Bool.or_eq_false_iff, Bool.and_eq_false_iff, Bool.not_eq_false'] at hbad
      exact hbad.2

theorem funcSames_adapted {o : GenOpts} {l : List Nat} {x y : GSt × Bool} (h : l.foldlM (funcSameStep o) x = some y) :
    Evolves x.1 y.1 ∧ (x.2 = true → y.2 = true) ∧ ∀ p ∈ l, Adapted o p y := by
  induction l generalizing x with
  | nil => cases h; exact ⟨.refl _, id, fun _ h => absurd h (by simp)⟩
  | cons p l ih =>
    rw [List.foldlM_cons] at h
    obtain ⟨x1, h1, h⟩ := Option.bind_eq_some_iff.mp h
    obtain ⟨e1, b1, ad⟩ := funcSameStep_adapted h1
    obtain ⟨e2, b2, ads⟩ := ih h
    refine ⟨e1.trans e2, b2 ∘ b1, fun q hq => ?_⟩
    rcases List.mem_cons.mp hq with rfl | hq
    · exact ad.evolves e2 b2
    · exact ads q hq

/-- After the analysis of functions every function obeys the lists. -/
theorem analyzeFuncs_lists {o : GenOpts} {s s' : GSt} (h : analyzeFuncs o s = some s') {p : Nat} {b : GBlock}
    (hb : s'.f1.at p = some b) (ht : b.ty = .func) : Obeyed o p s' ∧ Adapted o p (s', false) := by
  unfold analyzeFuncs at h
  obtain ⟨s1, _, h⟩ := Option.bind_eq_some_iff.mp h
  obtain ⟨s2, _, h⟩ := Option.bind_eq_some_iff.mp h
  obtain ⟨s3, _, h⟩ := Option.bind_eq_some_iff.mp h
  obtain ⟨f4, e4, h⟩ := Option.bind_eq_some_iff.mp h
  obtain ⟨s5, e5, h⟩ := Option.bind_eq_some_iff.mp h
  obtain ⟨⟨s6, bad⟩, e6, h⟩ := Option.bind_eq_some_iff.mp h
  dsimp only at h
  split at h
  · cases h
  rename_i hbad
  cases h
  have hbad : bad = false := by simpa using hbad
  subst hbad
  obtain ⟨v5, ob⟩ := funcLists_obey e5
  obtain ⟨v6, _, ad⟩ := funcSames_adapted e6
  obtain ⟨c5, hc5, _, _, t5, _⟩ := v6.new p b hb
  obtain ⟨c4, hc4, _, _, t4, _⟩ := v5.new p c5 hc5
  have mem : ∀ {f : GFile} {c : GBlock}, f.at p = some c → c.ty = .func → p ∈ f.starts .func := by
    intro f c hc hty
    have h1 := List.mem_of_find?_eq_some hc
    have h2 : c.start = p := by simpa using List.find?_some hc
    exact List.mem_map.mpr ⟨c, List.mem_filter.mpr ⟨h1, by simpa using hty⟩, h2⟩
  have hst : (s5.f1.starts .func) = (s5.f1.starts .func) := rfl
  have m5 : p ∈ s5.f1.starts .func := mem hc5 (t5.symm.trans ht)
  have m3 : p ∈ s3.f1.starts .func := by
    have : f4.starts .func = s3.f1.starts .func := by
      refine foldlM_inv (fun f : GFile => f.starts .func = s3.f1.starts .func) rfl (fun q f f' _ hf hst => ?_) e4
      unfold newFuncStep at hst
      split at hst
      · cases hst; exact hf
      split at hst
      · cases hst; exact hf
      split at hst
      · cases hst; exact hf
      obtain ⟨g, e, hst⟩ := Option.bind_eq_some_iff.mp hst
      obtain ⟨r, rfl⟩ := newLabelsLoop_frame _ _ _ _ hst
      split at e
      · unfold addSuffix at e
        rw [Option.map_eq_some_iff] at e
        obtain ⟨r', _, rfl⟩ := e
        exact hf
      · cases e; exact hf
    rw [← this]
    exact mem hc4 (t4.symm.trans (t5.symm.trans ht))
  exact ⟨(ob p m3).evolves v6, ad p m5⟩

end Verif
