import Verif.Proof.GenInv
/-
The analysis of variables keeps the invariant.
-/
namespace Verif

variable [AsmTarget]

theorem dec_mem {f : GFile} {P : Corresp} {I U : Nat → Bool} {r : Renames} {b : GBlock} :
    b ∈ (f.dec P I U r).bs ↔ ∃ c ∈ f.bs, b = c.dec P I U := by
  unfold GFile.dec
  simp only [List.mem_map]
  constructor
  · rintro ⟨c, h1, h2⟩; exact ⟨c, h1, h2.symm⟩
  · rintro ⟨c, h1, h2⟩; exact ⟨c, h1, h2.symm⟩

theorem dec_at_some {f : GFile} {P : Corresp} {I U : Nat → Bool} {r : Renames} {p : Nat} {b : GBlock}
    (h : (f.dec P I U r).at p = some b) : ∃ c ∈ f.bs, c.start = p ∧ b = c.dec P I U ∧ f.at p = some c := by
  rw [dec_at, Option.map_eq_some_iff] at h
  obtain ⟨c, h1, h2⟩ := h
  have := mem_of_at h1
  exact ⟨c, this.1, this.2, h2.symm, h1⟩

theorem find_some {f : GFile} {nm : Kpstr} {c : GBlock} (h : f.find nm = some c) : c ∈ f.bs ∧ kpstrcmp c.name nm = 0 :=
  ⟨List.mem_of_find?_eq_some h, by simpa using List.find?_some h⟩

theorem findHuman_some {f : GFile} {nm : Kpstr} {c : GBlock} (h : f.findHuman nm = some c) : c ∈ f.bs ∧ kpstrcmp c.human nm = 0 :=
  ⟨List.mem_of_find?_eq_some h, by simpa using List.find?_some h⟩

/-- A rename that is added and removed again. -/
theorem addDel {t t1 t2 : Renames} {x y : Kpstr} (h : RenOk t) (hx : x.Ok) (hy : y.Ok) (h1 : renameAdd t x y = some t1)
    (h2 : renameDel t1 x = some t2) : RenOk t2 ∧ ∀ u v, mapOf t2 u = some v → mapOf t u = some v := by
  obtain ⟨k1, k2, _, _⟩ := renameAdd_map h hx hy h1
  obtain ⟨k3, k4⟩ := renameDel_map k1 hx h2
  refine ⟨k3, fun u v e => ?_⟩
  rw [k4] at e
  split at e
  · cases e
  · rename_i hne
    rcases k2 u v e with e | e
    · exact e
    · exact absurd e.1 hne

theorem varCmp_shrink {o : GenOpts} {L : GSt} {a : AnSt} {b0 b1 : GBlock} {s : GSt} {same : Bool} (h0 : RenOk a.r0)
    (h1 : RenOk a.r1) (k0 : b0.name.Ok) (k1 : b1.name.Ok) (h : varCmp o (a.st L) b0 b1 = some (s, same)) :
    ∃ a', s = a'.st L ∧ Shrink a a' ∧ (same = true → kpstrcmp b0.human b1.human = 0) := by
  unfold varCmp at h
  split at h
  · cases h; exact ⟨a, rfl, Shrink.refl h0 h1, fun e => by cases e⟩
  · split at h
    · cases h; exact ⟨a, rfl, Shrink.refl h0 h1, fun e => by cases e⟩
    · split at h
      · cases h; exact ⟨a, rfl, Shrink.refl h0 h1, fun e => by cases e⟩
      · rename_i hh
        rw [Decidable.not_not] at hh
        rw [AnSt.add0, Option.bind_eq_some_iff] at h
        obtain ⟨s1, e1, h⟩ := h
        rw [Option.map_eq_some_iff] at e1
        obtain ⟨t0, e1, rfl⟩ := e1
        rw [AnSt.add1, Option.bind_eq_some_iff] at h
        obtain ⟨s2, e2, h⟩ := h
        rw [Option.map_eq_some_iff] at e2
        obtain ⟨t1, e2, rfl⟩ := e2
        dsimp only at h
        rw [AnSt.del0, Option.bind_eq_some_iff] at h
        obtain ⟨s3, e3, h⟩ := h
        rw [Option.map_eq_some_iff] at e3
        obtain ⟨t2, e3, rfl⟩ := e3
        rw [AnSt.del1, Option.map_eq_some_iff] at h
        obtain ⟨s4, e4, h⟩ := h
        rw [Option.map_eq_some_iff] at e4
        obtain ⟨t3, e4, rfl⟩ := e4
        cases h
        obtain ⟨q1, q2⟩ := addDel h0 k0 k1 e1 e3
        obtain ⟨q3, q4⟩ := addDel h1 k1 k0 e2 e4
        exact ⟨_, rfl, ⟨rfl, rfl, rfl, rfl, q1, q3, q2, q4⟩, fun _ => hh⟩

theorem varSearch_shrink {o : GenOpts} {L : GSt} {b0 : GBlock} (k0 : b0.name.Ok) : ∀ (l : List GBlock) (a : AnSt) (s : GSt)
    (res : Option GBlock), (∀ b ∈ l, b.name.Ok) → RenOk a.r0 → RenOk a.r1 → varSearch o (a.st L) b0 l = some (s, res) →
    ∃ a', s = a'.st L ∧ Shrink a a' ∧ ∀ b1, res = some b1 → b1 ∈ l ∧ kpstrcmp b0.human b1.human = 0 := by
  intro l
  induction l with
  | nil =>
    intro a s res _ h0 h1 h
    cases h
    exact ⟨a, rfl, Shrink.refl h0 h1, fun _ e => by cases e⟩
  | cons b1 l ih =>
    intro a s res hl h0 h1 h
    rw [varSearch, Option.bind_eq_some_iff] at h
    obtain ⟨⟨s1, same⟩, e1, h⟩ := h
    obtain ⟨a1, rfl, hs, hsame⟩ := varCmp_shrink h0 h1 k0 (hl b1 (by simp)) e1
    dsimp only at h
    cases same with
    | true =>
      cases h
      exact ⟨a1, rfl, hs, fun b e => by cases e; exact ⟨by simp, hsame rfl⟩⟩
    | false =>
      obtain ⟨a2, e2, hs2, hr⟩ := ih a1 s res (fun b hb => hl b (by simp [hb])) hs.ok0 hs.ok1 h
      exact ⟨a2, e2, hs.trans hs2, fun b e => ⟨by simp [(hr b e).1], (hr b e).2⟩⟩

/-- Names or base names are the same. -/
def NameMatch (b0 b1 : GBlock) : Prop := b0.name.text = b1.name.text ∨ (b0.auto = true ∧ b0.human.text = b1.human.text)

theorem varTry_shrink {o : GenOpts} {L : GSt} {a : AnSt} (hL : LOk L) {c0 : GBlock} (hc0 : c0 ∈ L.f0.bs) {b1 : Option GBlock} {s : GSt}
    {res : Option GBlock} (hb1 : ∀ b, b1 = some b → ∃ c ∈ L.f1.bs, b = c.dec a.P1 a.I a.U) (h0 : RenOk a.r0) (h1 : RenOk a.r1)
    (h : varTry o (a.st L) (c0.dec a.P0 noFlag noFlag) b1 = some (s, res)) :
    ∃ a', s = a'.st L ∧ Shrink a a' ∧ ∀ b, res = some b → ∃ c ∈ L.f1.bs, b = c.dec a.P1 a.I a.U ∧ NameMatch c0 c := by
  have k0 := hL.ok0 c0 hc0
  unfold varTry at h
  split at h
  · cases h
    refine ⟨a, rfl, Shrink.refl h0 h1, fun b e => ?_⟩
    have e : (L.f1.dec a.P1 a.I a.U a.r1).find c0.name = some b := e
    rw [dec_find, Option.map_eq_some_iff] at e
    obtain ⟨c, e1, e2⟩ := e
    have := find_some e1
    refine ⟨c, this.1, e2.symm, Or.inl ?_⟩
    exact ((kpstrcmp_zero (hL.ok1 c this.1).1 k0.1).mp this.2).symm
  · rename_i hau
    have hau : c0.auto = true := by
      cases hq : c0.auto with
      | true => rfl
      | false => exact absurd hq hau
    dsimp only at h
    rw [Option.bind_eq_some_iff] at h
    obtain ⟨⟨s1, same⟩, e1, h⟩ := h
    have hfirst : ∃ a1, s1 = a1.st L ∧ Shrink a a1 ∧ (same = true → ∃ c ∈ L.f1.bs, b1 = some (c.dec a.P1 a.I a.U) ∧ NameMatch c0 c) := by
      cases b1 with
      | none =>
        cases e1
        exact ⟨a, rfl, Shrink.refl h0 h1, fun e => by cases e⟩
      | some b1 =>
        obtain ⟨c, hc, rfl⟩ := hb1 b1 rfl
        obtain ⟨a1, q1, q2, q3⟩ := varCmp_shrink (b0 := c0.dec a.P0 noFlag noFlag) (b1 := c.dec a.P1 a.I a.U) h0 h1 k0.1 (hL.ok1 c hc).1 e1
        exact ⟨a1, q1, q2, fun e => ⟨c, hc, rfl, Or.inr ⟨hau, (kpstrcmp_zero k0.2.1 (hL.ok1 c hc).2.1).mp (q3 e)⟩⟩⟩
    obtain ⟨a1, rfl, hs, hfirst⟩ := hfirst
    dsimp only at h
    split at h
    · rename_i hsame
      cases h
      obtain ⟨c, hc, e, hm⟩ := hfirst hsame
      exact ⟨a1, rfl, hs, fun b e2 => by rw [e] at e2; cases e2; exact ⟨c, hc, rfl, hm⟩⟩
    · have hmem : ∀ b ∈ (a1.st L).f1.bs.filter (fun b => b.ty = .var), ∃ c ∈ L.f1.bs, b = c.dec a.P1 a.I a.U := by
        intro b hb
        obtain ⟨c, hc, e⟩ := dec_mem.mp (List.mem_filter.mp hb).1
        exact ⟨c, hc, by rw [e, hs.P1, hs.I, hs.U]⟩
      obtain ⟨a2, e2, hs2, hr⟩ := varSearch_shrink (b0 := c0.dec a.P0 noFlag noFlag) k0.1 _ a1 s res
        (fun b hb => by obtain ⟨c, hc, rfl⟩ := hmem b hb; exact (hL.ok1 c hc).1) hs.ok0 hs.ok1 h
      refine ⟨a2, e2, hs.trans hs2, fun b e => ?_⟩
      obtain ⟨c, hc, rfl⟩ := hmem b (hr b e).1
      exact ⟨c, hc, rfl, Or.inr ⟨hau, (kpstrcmp_zero k0.2.1 (hL.ok1 c hc).2.1).mp (hr _ e).2⟩⟩

/-- A correspondence grows. -/
def Grows (P P' : Corresp) : Prop := ∀ p q, P p = some q → P' p = some q

theorem setAt_grows {P : Corresp} {p : Nat} {q : Option Nat} (h : P p = none) : Grows P (setAt P p q) := by
  intro u v e
  unfold setAt
  split
  · rename_i he; rw [he, h] at e; cases e
  · exact e

theorem setAt_same {β : Type} (f : Nat → β) (p : Nat) (v : β) : setAt f p v p = v := by simp [setAt]

theorem setAt_ne {β : Type} (f : Nat → β) {p q : Nat} (v : β) (h : q ≠ p) : setAt f p v q = f q := by simp [setAt, h]

/-- A new pair keeps what does not depend on the renames. -/
theorem Inv.pair {L : GSt} {a : AnSt} (hL : LOk L) (h : Inv L a) {c0 c1 : GBlock} (h0 : c0 ∈ L.f0.bs) (h1 : c1 ∈ L.f1.bs)
    (hp : a.P0 c0.start = none) (hm : NameMatch c0 c1) :
    Inv L { a with P0 := setAt a.P0 c0.start (some c1.start), P1 := setAt a.P1 c1.start (some c0.start) } := by
  have hg := setAt_grows (q := some c1.start) hp
  refine ⟨h.ok0, h.ok1, fun x y e => ?_, fun x y e => ?_, fun b1 hb1 p e => ?_, fun b0 hb0 q e => ?_, fun b0 hb0 q e => ?_⟩
  · rcases h.just0 x y e with hc | ⟨b0, q0, b1, q1, q2, q3⟩
    · exact Or.inl (hc.mono hg)
    · exact Or.inr ⟨b0, q0, b1, q1, hg _ _ q2, q3⟩
  · rcases h.just1 x y e with hc | ⟨b0, q0, b1, q1, q2, q3⟩
    · exact Or.inl hc
    · exact Or.inr ⟨b0, q0, b1, q1, hg _ _ q2, q3⟩
  · dsimp only at e ⊢
    by_cases hb : b1.start = c1.start
    · rw [hb, setAt_same] at e
      cases e
      exact ⟨c0, h0, rfl, by rw [setAt_same, hb]⟩
    · rw [setAt_ne _ _ hb] at e
      obtain ⟨b0, q1, q2, q3⟩ := h.sym b1 hb1 p e
      exact ⟨b0, q1, q2, hg _ _ q3⟩
  · dsimp only at e
    by_cases hb : b0.start = c0.start
    · rw [hb, setAt_same] at e
      cases e
      have := start_inj hL.st0 hb0 h0 hb
      subst this
      exact ⟨c1, h1, rfl, hm⟩
    · rw [setAt_ne _ _ hb] at e
      exact h.mat b0 hb0 q e
  · dsimp only at e ⊢
    by_cases hq : q = c1.start
    · rw [hq, setAt_same]; rfl
    · rw [setAt_ne _ _ hq]
      by_cases hb : b0.start = c0.start
      · rw [hb, setAt_same] at e
        exact absurd (Option.some.inj e).symm hq
      · rw [setAt_ne _ _ hb] at e
        exact h.rev b0 hb0 q e

/-- One more rename of the old file. -/
theorem Inv.add0 {L : GSt} {a : AnSt} (h : Inv L a) {x y : Kpstr} (hx : x.Ok) (hy : y.Ok) {t : Renames}
    (hj : Corr L a.P0 x.text y.text ∨
      ∃ b0 ∈ L.f0.bs, ∃ b1 ∈ L.f1.bs, a.P0 b0.start = some b1.start ∧ x.text = b0.name.text ∧ y.text = b1.name.text ++ kp0)
    (hr : renameAdd a.r0 x y = some t) : Inv L { a with r0 := t } := by
  obtain ⟨k1, k2, _, _⟩ := renameAdd_map h.ok0 hx hy hr
  refine ⟨k1, h.ok1, fun u v e => ?_, h.just1, h.sym, h.mat, h.rev⟩
  rcases k2 u v e with e | ⟨rfl, rfl⟩
  · exact h.just0 u v e
  · exact hj

theorem Inv.add1 {L : GSt} {a : AnSt} (h : Inv L a) {x y : Kpstr} (hx : x.Ok) (hy : y.Ok) {t : Renames}
    (hj : y.text = x.text ++ kp0 ∨
      ∃ b0 ∈ L.f0.bs, ∃ b1 ∈ L.f1.bs, a.P0 b0.start = some b1.start ∧ x.text = b1.name.text ∧ y.text = b0.name.text)
    (hr : renameAdd a.r1 x y = some t) : Inv L { a with r1 := t } := by
  obtain ⟨k1, k2, _, _⟩ := renameAdd_map h.ok1 hx hy hr
  refine ⟨h.ok0, k1, h.just0, fun u v e => ?_, h.sym, h.mat, h.rev⟩
  rcases k2 u v e with e | ⟨rfl, rfl⟩
  · exact h.just1 u v e
  · exact hj

theorem Inv.del0 {L : GSt} {a : AnSt} (h : Inv L a) {x : Kpstr} (hx : x.Ok) {t : Renames} (hr : renameDel a.r0 x = some t) :
    Inv L { a with r0 := t } := by
  obtain ⟨k1, k2⟩ := renameDel_map h.ok0 hx hr
  exact h.shrink ⟨rfl, rfl, rfl, rfl, k1, h.ok1, fun u v e => by rw [k2] at e; split at e; cases e; exact e, fun _ _ e => e⟩

theorem Inv.del1 {L : GSt} {a : AnSt} (h : Inv L a) {x : Kpstr} (hx : x.Ok) {t : Renames} (hr : renameDel a.r1 x = some t) :
    Inv L { a with r1 := t } := by
  obtain ⟨k1, k2⟩ := renameDel_map h.ok1 hx hr
  exact h.shrink ⟨rfl, rfl, rfl, rfl, h.ok0, k1, fun _ _ e => e, fun u v e => by rw [k2] at e; split at e; cases e; exact e⟩

/-- What the analysis of variables does to the state. -/
structure VarRel (L : GSt) (a a' : AnSt) : Prop where
  I : a'.I = a.I
  U : a'.U = a.U
  grows : Grows a.P0 a'.P0
  others : ∀ b0 ∈ L.f0.bs, b0.ty ≠ .var → a'.P0 b0.start = a.P0 b0.start

theorem VarRel.refl (L : GSt) (a : AnSt) : VarRel L a a := ⟨rfl, rfl, fun _ _ h => h, fun _ _ _ => rfl⟩

theorem VarRel.trans {L : GSt} {a b c : AnSt} (h : VarRel L a b) (h' : VarRel L b c) : VarRel L a c :=
  ⟨h'.I.trans h.I, h'.U.trans h.U, fun p q e => h'.grows p q (h.grows p q e),
    fun b0 hb ht => (h'.others b0 hb ht).trans (h.others b0 hb ht)⟩

theorem Shrink.varRel {L : GSt} {a a' : AnSt} (h : Shrink a a') : VarRel L a a' :=
  ⟨h.I, h.U, fun p q e => by rw [h.P0]; exact e, fun _ _ _ => by rw [h.P0]⟩

theorem starts_mem {f : GFile} (_hs : f.Starts) {ty : BType} {p : Nat} : p ∈ f.starts ty ↔ ∃ b ∈ f.bs, b.ty = ty ∧ b.start = p := by
  rw [starts_eq, List.mem_map]
  constructor
  · rintro ⟨b, hb, rfl⟩
    exact ⟨b, (mem_ofTy.mp hb).1, (mem_ofTy.mp hb).2, rfl⟩
  · rintro ⟨b, hb, ht, rfl⟩
    exact ⟨b, mem_ofTy.mpr ⟨hb, ht⟩, rfl⟩

theorem varStep_inv {o : GenOpts} {L : GSt} {a : AnSt} (hL : LOk L) (h : Inv L a) {pass : Nat} {cur : Option Nat} {pr : Bool} {p : Nat}
    {v' : VarSt} (hp : p ∈ L.f0.starts .var) (hs : varStep o pass ⟨a.st L, cur, pr⟩ p = some v') :
    ∃ a', v'.s = a'.st L ∧ Inv L a' ∧ VarRel L a a' := by
  unfold varStep at hs
  dsimp only at hs
  split at hs
  · cases hs; exact ⟨a, rfl, h, VarRel.refl L a⟩
  rename_i b0 hb0
  obtain ⟨c0, hc0, hst, rfl, _⟩ := dec_at_some hb0
  have hty : c0.ty = .var := by
    obtain ⟨b, q1, q2, q3⟩ := (starts_mem hL.st0).mp hp
    have := start_inj hL.st0 q1 hc0 (q3.trans hst.symm)
    rw [← this]; exact q2
  split at hs
  · cases hs; exact ⟨a, rfl, h, VarRel.refl L a⟩
  rename_i hnone
  have hnone : a.P0 c0.start = none := by simpa [GBlock.dec] using hnone
  split at hs
  · cases hs; exact ⟨a, rfl, h, VarRel.refl L a⟩
  rw [Option.bind_eq_some_iff] at hs
  obtain ⟨⟨s1, res⟩, e1, hs⟩ := hs
  obtain ⟨a1, rfl, hsh, hr⟩ := varTry_shrink hL hc0 (fun b hb => by
    rw [Option.bind_eq_some_iff] at hb
    obtain ⟨q, _, hb⟩ := hb
    obtain ⟨c, hc, _, e, _⟩ := dec_at_some hb
    exact ⟨c, hc, e⟩) h.ok0 h.ok1 e1
  have hi1 := h.shrink hsh
  dsimp only at hs
  cases res with
  | none =>
    cases hs
    exact ⟨a1, rfl, hi1, hsh.varRel⟩
  | some b1 =>
    obtain ⟨c1, hc1, rfl, hm⟩ := hr b1 rfl
    dsimp only at hs
    rw [AnSt.add0, Option.bind_eq_some_iff] at hs
    obtain ⟨s2, e2, hs⟩ := hs
    rw [Option.map_eq_some_iff] at e2
    obtain ⟨t0, e2, rfl⟩ := e2
    rw [AnSt.add1, Option.map_eq_some_iff] at hs
    obtain ⟨s3, e3, hs⟩ := hs
    rw [Option.map_eq_some_iff] at e3
    obtain ⟨t1, e3, rfl⟩ := e3
    subst hs
    dsimp only
    rw [AnSt.setPair]
    have hn1 : a1.P0 c0.start = none := by rw [hsh.P0]; exact hnone
    have hip := hi1.pair hL hc0 hc1 hn1 hm
    have hP : setAt a1.P0 c0.start (some c1.start) c0.start = some c1.start := setAt_same ..
    have hi2 := hip.add0 (hL.ok0 c0 hc0).1 (hL.ok1 c1 hc1).1 (t := t0) (Or.inl ⟨c0, hc0, c1, hc1, hP, Or.inl ⟨rfl, rfl⟩⟩) e2
    have hi3 := hi2.add1 (hL.ok1 c1 hc1).1 (hL.ok0 c0 hc0).1 (t := t1) (Or.inr ⟨c0, hc0, c1, hc1, hP, rfl, rfl⟩) e3
    refine ⟨_, rfl, hi3, hsh.varRel.trans ⟨rfl, rfl, setAt_grows hn1, fun b hb ht => ?_⟩⟩
    show setAt _ _ _ _ = _
    rw [setAt_ne]
    intro e
    have := start_inj hL.st0 hb hc0 e
    subst this
    exact ht hty

theorem varPasses_inv {o : GenOpts} {L : GSt} (hL : LOk L) : ∀ (fuel pass : Nat) (a : AnSt) (s : GSt), Inv L a →
    varPasses o fuel pass (a.st L) = some s → ∃ a', s = a'.st L ∧ Inv L a' ∧ VarRel L a a' := by
  intro fuel
  induction fuel with
  | zero => intro pass a s h hs; cases hs; exact ⟨a, rfl, h, VarRel.refl L a⟩
  | succ fuel ih =>
    intro pass a s h hs
    rw [varPasses, Option.bind_eq_some_iff] at hs
    obtain ⟨v, e1, hs⟩ := hs
    have hv := foldlM_inv (fun v : VarSt => ∃ a', v.s = a'.st L ∧ Inv L a' ∧ VarRel L a a') ⟨a, rfl, h, VarRel.refl L a⟩
      (fun p v v' hp hv hst => by
        obtain ⟨a1, q1, q2, q3⟩ := hv
        obtain ⟨vs, vc, vp⟩ := v
        dsimp only at q1
        subst q1
        have hp : p ∈ L.f0.starts .var := by rwa [show (a.st L).f0.starts .var = L.f0.starts .var from dec_starts ..] at hp
        obtain ⟨a2, w1, w2, w3⟩ := varStep_inv hL q2 hp hst
        exact ⟨a2, w1, w2, q3.trans w3⟩) e1
    obtain ⟨a1, q1, q2, q3⟩ := hv
    dsimp only at hs
    rw [q1] at hs
    generalize (if v.progress = true then pass else pass + 1) = ps at hs
    split at hs
    · obtain ⟨a2, w1, w2, w3⟩ := ih _ a1 s q2 hs
      exact ⟨a2, w1, w2, q3.trans w3⟩
    · cases hs
      exact ⟨a1, rfl, q2, q3⟩

/-- New names for symbols of the new file. -/
structure NewNames (a a' : AnSt) : Prop where
  P0 : a'.P0 = a.P0
  P1 : a'.P1 = a.P1
  I : a'.I = a.I
  U : a'.U = a.U
  r0 : a'.r0 = a.r0
  keeps : ∀ x y, mapOf a.r1 x = some y → mapOf a'.r1 x = some y

theorem NewNames.refl (a : AnSt) : NewNames a a := ⟨rfl, rfl, rfl, rfl, rfl, fun _ _ h => h⟩
theorem NewNames.trans {a b c : AnSt} (h : NewNames a b) (h' : NewNames b c) : NewNames a c :=
  ⟨h'.P0.trans h.P0, h'.P1.trans h.P1, h'.I.trans h.I, h'.U.trans h.U, h'.r0.trans h.r0,
    fun x y e => h'.keeps x y (h.keeps x y e)⟩

theorem kpatchName_text (b : Kpstr) : (kpatchName b).text = b.text ++ kp0 := by
  unfold kpatchName
  rw [kpz_text, List.append_assoc]
  rfl

theorem addSuffix_inv {L : GSt} {a : AnSt} (h : Inv L a) {t : Kpstr} (ht : t.Ok) {f : GFile}
    (hs : addSuffix (a.st L).f1 t t = some f) : ∃ a', f = (a'.st L).f1 ∧ Inv L a' ∧ NewNames a a' ∧
      mapOf a'.r1 t.text = some (t.text ++ kp0) := by
  unfold addSuffix at hs
  rw [Option.map_eq_some_iff] at hs
  obtain ⟨r, e, rfl⟩ := hs
  have hko : (kpatchName t).Ok := kpz_ok _
  have hk := renameAdd_map h.ok1 ht hko e
  refine ⟨{ a with r1 := r }, rfl, h.add1 ht hko (Or.inl (kpatchName_text t)) e, ⟨rfl, rfl, rfl, rfl, rfl, hk.2.2.1⟩, ?_⟩
  rw [← kpatchName_text]
  refine hk.2.2.2 fun e => ?_
  rw [kpatchName_text] at e
  have := congrArg List.length e
  rw [List.length_append] at this
  have : 0 < kp0.length := by decide +kernel
  omega

theorem newVarStep_inv {L : GSt} {a : AnSt} (hL : LOk L) (h : Inv L a) {p : Nat} {f : GFile}
    (hs : newVarStep (a.st L).f1 p = some f) : ∃ a', f = (a'.st L).f1 ∧ Inv L a' ∧ NewNames a a' := by
  unfold newVarStep at hs
  split at hs
  · cases hs; exact ⟨a, rfl, h, .refl a⟩
  rename_i b1 hb1
  obtain ⟨c, hc, _, rfl, _⟩ := dec_at_some hb1
  split at hs
  · cases hs; exact ⟨a, rfl, h, .refl a⟩
  · obtain ⟨a', q1, q2, q3, _⟩ := addSuffix_inv h (hL.ok1 c hc).1 hs
    exact ⟨a', q1, q2, q3⟩

/-- The contents of variables that correspond are the same, or the variable is listed as ignored. -/
def VarsSame (o : GenOpts) (L : GSt) (P : Corresp) : Prop :=
  ∀ b0 ∈ L.f0.bs, b0.ty = .var → ∀ b1 ∈ L.f1.bs, P b0.start = some b1.start →
    ignoredSym o L.f1.basename b0.human .var = true ∨ SameBlocks o L P b0 b1

/-- A variable of the old file that corresponds to no variable of the new one is of the kind that may vanish. -/
def VarsKept (L : GSt) (P : Corresp) : Prop := ∀ b0 ∈ L.f0.bs, b0.ty = .var → P b0.start = none → mayVanish b0 = true

theorem analyzeVars_inv {o : GenOpts} {L : GSt} {a : AnSt} (hL : LOk L) (h : Inv L a) {s : GSt}
    (hs : analyzeVars o (a.st L) = some s) : ∃ a', s = a'.st L ∧ Inv L a' ∧ VarRel L a a' ∧ VarsSame o L a'.P0 ∧ VarsKept L a'.P0 := by
  unfold analyzeVars at hs
  rw [Option.bind_eq_some_iff] at hs
  obtain ⟨s1, e1, hs⟩ := hs
  unfold varMatches at e1
  rw [Option.bind_eq_some_iff] at e1
  obtain ⟨s0, e0, e1⟩ := e1
  obtain ⟨a1, rfl, hi, hr⟩ := varPasses_inv hL _ _ a s0 h e0
  split at e1
  case isFalse => cases e1
  rename_i hkept
  cases e1
  split at hs
  case isFalse => cases hs
  rename_i hcont
  rw [Option.map_eq_some_iff] at hs
  obtain ⟨f, e2, rfl⟩ := hs
  have hf := foldlM_inv (fun f : GFile => ∃ a', f = (a'.st L).f1 ∧ Inv L a' ∧ NewNames a1 a') ⟨a1, rfl, hi, .refl a1⟩
    (fun p f f' hp hf hst => by
      obtain ⟨a2, rfl, q2, q3⟩ := hf
      obtain ⟨a3, w1, w2, w3⟩ := newVarStep_inv hL q2 hst
      exact ⟨a3, w1, w2, q3.trans w3⟩) e2
  obtain ⟨a2, rfl, hi2, hn⟩ := hf
  refine ⟨a2, ?_, hi2, hr.trans ⟨hn.I, hn.U, fun p q e => by rw [hn.P0]; exact e, fun _ _ _ => by rw [hn.P0]⟩, ?_, ?_⟩
  · unfold AnSt.st
    rw [hn.P0, hn.r0]
  · rw [hn.P0]
    intro b0 hb0 hty b1 hb1 hp
    rw [List.all_eq_true] at hcont
    have := hcont (b0.dec a1.P0 noFlag noFlag) (dec_mem.mpr ⟨b0, hb0, rfl⟩)
    rw [Bool.or_eq_true] at this
    rcases this with hne | hok
    · exact absurd hty (of_decide_eq_true hne)
    · unfold varContentOk at hok
      have hat : (b0.dec a1.P0 noFlag noFlag).pair.bind (a1.st L).f1.at = some (b1.dec a1.P1 a1.I a1.U) := by
        show (a1.P0 b0.start).bind _ = _
        rw [hp]
        show (L.f1.dec a1.P1 a1.I a1.U a1.r1).at b1.start = _
        rw [dec_at, at_of_mem hL.st1 hb1]
        rfl
      rw [hat] at hok
      dsimp only at hok
      rw [Bool.or_eq_true] at hok
      rcases hok with h1 | h1
      · left
        have : ignoredSym o L.f1.basename b0.human b0.ty = true := h1
        rwa [hty] at this
      · exact Or.inr (hi.same hL hb0 hb1 rfl rfl h1)
  · rw [hn.P0]
    intro b0 hb0 hty hp
    rw [List.all_eq_true] at hkept
    have := hkept (b0.dec a1.P0 noFlag noFlag) (dec_mem.mpr ⟨b0, hb0, rfl⟩)
    simp only [GBlock.dec, hty, ne_eq, not_true_eq_false, decide_false, Bool.false_or, hp, Option.isSome_none] at this
    exact this

end Verif
