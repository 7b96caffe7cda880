import Verif.Proof.GenLoad
/-
Functions that are the same in both files are found to be the same.
-/
namespace Verif

variable [AsmTarget]

/-! ### The comparison -/

/-- The token counts as the same in both files. -/
def Bal (s : GSt) (t : List Byte) : Prop :=
  (mapOf s.f0.ren t = none ∧ mapOf s.f1.ren t = none) ∨
  (mapOf s.f0.ren t = some (t ++ kp0) ∧ mapOf s.f1.ren t = some (t ++ kp0))

theorem Bal.same {s : GSt} {t : List Byte} (h : Bal s t) : SameToken (mapOf s.f0.ren) (mapOf s.f1.ren) t t := by
  unfold SameToken
  rcases h with ⟨h0, h1⟩ | ⟨h0, h1⟩
  · rw [h0, h1]
  · rw [h0, h1]; exact Or.inl rfl

theorem forall₂_diag {α : Type} {R : α → α → Prop} {l : List α} (h : ∀ x ∈ l, R x x) : List.Forall₂ R l l := by
  induction l with
  | nil => exact .nil
  | cons a l ih => exact .cons (h a (by simp)) (ih fun x hx => h x (by simp [hx]))

theorem forall₂_dropWhile {l0 l1 : List Ln} (h : List.Forall₂ SameLine l0 l1) :
    List.Forall₂ SameLine (l0.dropWhile skippedLine) (l1.dropWhile skippedLine) := by
  induction h with
  | nil => exact .nil
  | @cons a b l0 l1 hab hr ih =>
    rw [List.dropWhile_cons, List.dropWhile_cons]
    have : skippedLine a = skippedLine b := by
      unfold skippedLine
      rw [hab.1, hab.2.1]
    rw [this]
    split
    · exact ih
    · exact .cons hab hr

theorem cmpLines_same {c : CmpCtx} (h0 : RenOk c.r0) (h1 : RenOk c.r1) (hr : c.ren = true) : ∀ (n : Nat) (l0 l1 : List Ln),
    l0.length ≤ n → List.Forall₂ SameLine l0 l1 →
    (∀ l ∈ l0, ∀ x ∈ tokens (some l.text), SameToken (mapOf c.r0) (mapOf c.r1) x.text x.text) → cmpLines c l0 l1 = true := by
  intro n
  induction n with
  | zero =>
    intro l0 l1 hn h _
    cases l0 with
    | cons a l => simp at hn
    | nil =>
      cases h
      rw [cmpLines]
      rfl
  | succ n ih =>
    intro l0 l1 hn h hall
    have hd := forall₂_dropWhile h
    have hsub : ∀ x ∈ l0.dropWhile skippedLine, x ∈ l0 := fun x hx => (List.dropWhile_suffix skippedLine).mem hx
    have hlen := (List.dropWhile_suffix (l := l0) skippedLine).length_le
    rw [cmpLines]
    split
    · rfl
    · rename_i e0 e1; rw [e0, e1] at hd; cases hd
    · rename_i e0 e1; rw [e0, e1] at hd; cases hd
    · rename_i a l0' b l1' e0 e1
      rw [e0, e1] at hd
      rw [e0] at hsub hlen
      cases hd with
      | cons hab hd =>
        have hsd : sectDiffers a b = false := by
          unfold sectDiffers
          rw [hab.2.2]
          simp
        have hls : lineSame c a b = true := by
          unfold lineSame
          rw [hr, if_pos rfl, ← hab.1]
          have : strcmpAfterRename c.r0 c.r1 (some a.text) (some a.text) = 0 :=
            (C43_compare h0 h1 (some a.text) (some a.text)).2.mpr (forall₂_diag fun x hx => hall a (hsub a (by simp)) x hx)
          simp [this]
        rw [hsd, hls, Bool.and_false, if_neg (by decide), if_pos rfl]
        exact ih _ _ (by simp at hlen; omega) hd fun l hl => hall l (hsub l (by simp [hl]))

theorem cblockSame_of {o : GenOpts} {L : GSt} {a : AnSt} (h0 : RenOk a.r0) (h1 : RenOk a.r1) {b0 b1 : GBlock}
    (hl : List.Forall₂ SameLine (L.f0.lines b0) (L.f1.lines b1))
    (hb : ∀ l ∈ L.f0.lines b0, ∀ x ∈ tokens (some l.text), Bal (a.st L) x.text) {P P' : Corresp} {I U I' U' : Nat → Bool} :
    cblockSame o.os (a.st L).f0 (a.st L).f1 (b0.dec P I U) (b1.dec P' I' U') true true = true := by
  unfold cblockSame
  refine cmpLines_same (c := cmpCtx o.os (a.st L).f0 (a.st L).f1 (b0.dec P I U) (b1.dec P' I' U') true true) h0 h1 rfl _ _ _
    (Nat.le_refl _) hl fun l hl x hx => (hb l hl x hx).same

/-! ### Maps -/

theorem renameAdd_eq {t t' : Renames} {src dst : Kpstr} (h : RenOk t) (hs : src.Ok) (hd : dst.Ok)
    (ha : renameAdd t src dst = some t') (a : List Byte) :
    mapOf t' a = if a = src.text ∧ src.text ≠ dst.text then some dst.text else mapOf t a := by
  rcases renRep_step h (.add src dst) ⟨hs, hd⟩ with ⟨_, h2⟩ | ⟨m', t2, h1, h2, h3⟩
  · rw [show (RenOp.add src dst).run t = renameAdd t src dst from rfl, ha] at h2; cases h2
  · rw [show (RenOp.add src dst).run t = renameAdd t src dst from rfl, ha] at h2
    cases h2
    rw [mapOf_eq h3]
    simp only [RenOp.spec] at h1
    split at h1
    · rename_i he
      cases h1
      rw [if_neg (fun e => e.2 he)]
    · rename_i hne
      split at h1
      · rename_i d hd'
        split at h1
        · rename_i he
          cases h1
          split
          · rename_i e; rw [e.1, hd', he]
          · rfl
        · cases h1
      · cases h1
        by_cases e : a = src.text
        · rw [if_pos ⟨e, hne⟩]; simp [e]
        · rw [if_neg (fun x => e x.1)]; simp [e]

theorem matchLabels_add_keeps : ∀ (l0 l1 : List Ln) (r r' : Renames), RenOk r → matchLabels true r l0 l1 = some r' →
    ∀ x y, mapOf r x = some y → mapOf r' x = some y := by
  intro l0
  induction l0 with
  | nil =>
    intro l1 r r' h hm
    rw [matchLabels] at hm
    · cases hm; exact fun _ _ e => e
    · intro a l b l' e; cases e
  | cons a l0 ih =>
    intro l1 r r' h hm
    cases l1 with
    | nil =>
      rw [matchLabels] at hm
      · cases hm; exact fun _ _ e => e
      · intro a l b l' e1 e2; cases e2
    | cons b l1 =>
      rw [matchLabels] at hm
      split at hm
      · exact ih l1 r r' h hm
      · dsimp only at hm
        rw [if_pos rfl, Option.bind_eq_some_iff] at hm
        obtain ⟨r1, e1, hm⟩ := hm
        split at hm
        case isFalse => cases hm
        obtain ⟨k1, _, k3, _⟩ := renameAdd_map h (getToken_ok _) (getToken_ok _) e1
        exact fun x y e => ih l1 r1 r' k1 hm x y (k3 x y e)

theorem matchLabels_del_keeps : ∀ (l0 l1 : List Ln) (r r' : Renames), RenOk r → matchLabels false r l0 l1 = some r' →
    ∀ x y, mapOf r x = some y → (∀ a ∈ l0, x ≠ firstTok a.text) → mapOf r' x = some y := by
  intro l0
  induction l0 with
  | nil =>
    intro l1 r r' h hm
    rw [matchLabels] at hm
    · cases hm; exact fun _ _ e _ => e
    · intro a l b l' e; cases e
  | cons a l0 ih =>
    intro l1 r r' h hm
    cases l1 with
    | nil =>
      rw [matchLabels] at hm
      · cases hm; exact fun _ _ e _ => e
      · intro a l b l' e1 e2; cases e2
    | cons b l1 =>
      rw [matchLabels] at hm
      split at hm
      · exact fun x y e hx => ih l1 r r' h hm x y e fun c hc => hx c (by simp [hc])
      · dsimp only at hm
        rw [if_neg (by decide), Option.bind_eq_some_iff] at hm
        obtain ⟨r1, e1, hm⟩ := hm
        split at hm
        case isFalse => cases hm
        obtain ⟨k1, k2⟩ := renameDel_map h (getToken_ok _) e1
        refine fun x y e hx => ih l1 r1 r' k1 hm x y ?_ fun c hc => hx c (by simp [hc])
        rw [k2]
        exact (if_neg (hx a (by simp))).trans e

/-! ### Symbols -/

/-- What the symbol `t` must satisfy. -/
structure Settled (L : GSt) (B0 B1 : GBlock) (t : List Byte) : Prop where
  n01 : ∀ b0 ∈ L.f0.bs, b0.ty = .func ∨ b0.ty = .var → ∀ b1 ∈ L.f1.bs, NameMatch b0 b1 → (b0.name.text = t ↔ b1.name.text = t)
  n1 : ∀ b1 ∈ L.f1.bs, b1.ty = .func ∨ b1.ty = .var → b1.name.text = t → ∃ b0 ∈ L.f0.bs, b0.name.text = t ∧ b0.ty = b1.ty ∧ b0.auto = false ∧
    (b0.ty = .func ∨ (b0.ty = .var ∧ mayVanish b0 = false))
  l0 : ∀ b0 ∈ L.f0.bs, L.f0.HasLabel b0 t → t = b0.name.text ∨ (b0 = B0 ∧ ∀ b ∈ L.f0.bs, b.name.text ≠ t)
  l1 : ∀ b1 ∈ L.f1.bs, L.f1.HasLabel b1 t → t = b1.name.text ∨ b1 = B1
  na : ∀ b0 ∈ L.f0.bs, b0.ty = .func → b0.auto = true → b0.name.text ≠ t

theorem settled_of {L : GSt} (h0 : FileOk L.f0) (h1 : FileOk L.f1) (hn0 : L.f0.Named) (hn1 : L.f1.Named) {B0 B1 : GBlock} {t : List Byte}
    (h : SameMeaning L B0 B1 t) : Settled L B0 B1 t := by
  have hmt : ∀ b0 ∈ L.f0.bs, b0.ty = .func ∨ b0.ty = .var → ∀ b1 ∈ L.f1.bs, NameMatch b0 b1 → b1.name.text ≠ [] := by
    intro b0 hb0 ht b1 hb1 hm he
    have hne := hn0 b0 hb0 ht
    rcases hm with e | ⟨_, e⟩
    · exact hne (e.trans he)
    · have h2 := (h0.human b0 hb0).mp hne
      rw [e] at h2
      exact (h1.human b1 hb1).mpr h2 he
  cases h with
  | external e0 e1 =>
    refine ⟨fun b0 hb0 ht b1 hb1 hm => ⟨fun e => ?_, fun e => ?_⟩, fun b1 hb1 ht e => ?_, fun b0 hb0 hl => absurd hl (e0 b0 hb0).2,
      fun b1 hb1 hl => absurd hl (e1 b1 hb1).2, fun b0 hb0 ht ha e => ?_⟩
    · rcases (e0 b0 hb0).1 with h | h
      · exact absurd e h
      · exact absurd (e.trans h) (hn0 b0 hb0 ht)
    · rcases (e1 b1 hb1).1 with h | h
      · exact absurd e h
      · exact absurd (e.trans h) (hmt b0 hb0 ht b1 hb1 hm)
    · rcases (e1 b1 hb1).1 with h | h
      · exact absurd e h
      · exact absurd (e.trans h) (hn1 b1 hb1 ht)
    · rcases (e0 b0 hb0).1 with h | h
      · exact absurd e h
      · exact absurd (e.trans h) (hn0 b0 hb0 (Or.inl ht))
  | label e0 e1 =>
    refine ⟨fun b0 hb0 ht b1 hb1 hm => ⟨fun e => absurd e (e0 b0 hb0).1, fun e => absurd e (e1 b1 hb1).1⟩,
      fun b1 hb1 ht e => absurd e (e1 b1 hb1).1, fun b0 hb0 hl => Or.inr ⟨(e0 b0 hb0).2 hl, fun b hb => (e0 b hb).1⟩,
      fun b1 hb1 hl => Or.inr ((e1 b1 hb1).2 hl), fun b0 hb0 ht ha => (e0 b0 hb0).1⟩
  | name c0 c1 hc0 hc1 en0 en1 ety hty hau hne hl0 hl1 hh =>
    rw [← mayVanish_eq c0 (h0.ok c0 hc0).1] at hty
    refine ⟨fun b0 hb0 ht b1 hb1 hm => ⟨fun e => ?_, fun e => ?_⟩, fun b1 hb1 ht e => ?_, fun b0 hb0 hl => ?_, fun b1 hb1 hl => ?_,
      fun b0 hb0 ht ha e => ?_⟩
    · have := h0.uniq b0 hb0 c0 hc0 (e.trans en0.symm) (by rw [e]; exact hne)
      subst this
      rcases hm with h | ⟨h, _⟩
      · exact h.symm.trans en0
      · rw [h] at hau; cases hau
    · have := h1.uniq b1 hb1 c1 hc1 (e.trans en1.symm) (by rw [e]; exact hne)
      subst this
      rcases hm with h | ⟨h, h'⟩
      · exact h.trans en1
      · exact absurd h' (hh b0 hb0 h)
    · have := h1.uniq b1 hb1 c1 hc1 (e.trans en1.symm) (by rw [e]; exact hne)
      subst this
      exact ⟨c0, hc0, en0, ety, hau, hty⟩
    · rw [hl0 b0 hb0 hl]; exact Or.inl en0.symm
    · rw [hl1 b1 hb1 hl]; exact Or.inl en1.symm
    · have := h0.uniq b0 hb0 c0 hc0 (e.trans en0.symm) (by rw [e]; exact hne)
      subst this
      rw [ha] at hau
      cases hau

/-! ### Variables -/

/-- No rename of the symbol. -/
def Clear (s : GSt) (t : List Byte) : Prop := mapOf s.f0.ren t = none ∧ mapOf s.f1.ren t = none

theorem Clear.shrink {L : GSt} {a a' : AnSt} (h : Shrink a a') {t : List Byte} (hc : Clear (a.st L) t) : Clear (a'.st L) t := by
  constructor
  · cases e : mapOf (a'.st L).f0.ren t with
    | none => rfl
    | some y => have := h.map0 t y e; rw [show mapOf a.r0 t = none from hc.1] at this; cases this
  · cases e : mapOf (a'.st L).f1.ren t with
    | none => rfl
    | some y => have := h.map1 t y e; rw [show mapOf a.r1 t = none from hc.2] at this; cases this

theorem varStep_clear {o : GenOpts} {L : GSt} {a : AnSt} (hL : LOk L) (h : Inv L a) {B0 B1 : GBlock} {t : List Byte} (ht : Settled L B0 B1 t)
    (hc : Clear (a.st L) t) {pass : Nat} {cur : Option Nat} {pr : Bool} {p : Nat}
    {v' : VarSt} (hp : p ∈ L.f0.starts .var) (hs : varStep o pass ⟨a.st L, cur, pr⟩ p = some v') : Clear v'.s t := by
  unfold varStep at hs
  dsimp only at hs
  split at hs
  · cases hs; exact hc
  rename_i b0 hb0
  obtain ⟨c0, hc0, hst, rfl, _⟩ := dec_at_some hb0
  have hty : c0.ty = .var := by
    obtain ⟨b, q1, q2, q3⟩ := (starts_mem hL.st0).mp hp
    have := start_inj hL.st0 q1 hc0 (q3.trans hst.symm)
    rw [← this]; exact q2
  split at hs
  · cases hs; exact hc
  split at hs
  · cases hs; exact hc
  rw [Option.bind_eq_some_iff] at hs
  obtain ⟨⟨s1, res⟩, e1, hs⟩ := hs
  obtain ⟨a1, rfl, hsh, hr⟩ := varTry_shrink hL hc0 (fun b hb => by
    rw [Option.bind_eq_some_iff] at hb
    obtain ⟨q, _, hb⟩ := hb
    obtain ⟨c, hc, _, e, _⟩ := dec_at_some hb
    exact ⟨c, hc, e⟩) h.ok0 h.ok1 e1
  have hc1' := hc.shrink hsh
  dsimp only at hs
  cases res with
  | none => cases hs; exact hc1'
  | some b1 =>
    obtain ⟨c1, hc1, rfl, hm⟩ := hr b1 rfl
    dsimp only at hs
    rw [AnSt.add0, Option.bind_eq_some_iff] at hs
    obtain ⟨s2, e2, hs⟩ := hs
    rw [Option.map_eq_some_iff] at e2
    obtain ⟨t0, e2, rfl⟩ := e2
    rw [AnSt.add1, Option.map_eq_some_iff] at hs
    obtain ⟨s3, e3, hs⟩ := hs
    rw [Option.map_eq_some_iff] at e3
    obtain ⟨t1, e3, rfl⟩ := e3
    subst hs
    have hn := ht.n01 c0 hc0 (Or.inr hty) c1 hc1 hm
    constructor
    · show mapOf t0 t = none
      rw [renameAdd_eq hsh.ok0 (hL.ok0 c0 hc0).1 (hL.ok1 c1 hc1).1 e2, if_neg]
      · exact hc1'.1
      · rintro ⟨q1, q2⟩
        exact q2 (q1.symm.trans (hn.mp q1.symm).symm)
    · show mapOf t1 t = none
      rw [renameAdd_eq hsh.ok1 (hL.ok1 c1 hc1).1 (hL.ok0 c0 hc0).1 e3, if_neg]
      · exact hc1'.2
      · rintro ⟨q1, q2⟩
        exact q2 (q1.symm.trans (hn.mpr q1.symm).symm)

theorem varPasses_clear {o : GenOpts} {L : GSt} (hL : LOk L) {B0 B1 : GBlock} {t : List Byte} (ht : Settled L B0 B1 t) :
    ∀ (fuel pass : Nat) (a : AnSt) (s : GSt), Inv L a → Clear (a.st L) t → varPasses o fuel pass (a.st L) = some s → Clear s t := by
  intro fuel
  induction fuel with
  | zero => intro pass a s h hc hs; cases hs; exact hc
  | succ fuel ih =>
    intro pass a s h hc hs
    rw [varPasses, Option.bind_eq_some_iff] at hs
    obtain ⟨v, e1, hs⟩ := hs
    have hv := foldlM_inv (fun v : VarSt => ∃ a', v.s = a'.st L ∧ Inv L a' ∧ Clear v.s t) ⟨a, rfl, h, hc⟩
      (fun p v v' hp hv hst => by
        obtain ⟨a1, q1, q2, q3⟩ := hv
        obtain ⟨vs, vc, vp⟩ := v
        dsimp only at q1
        subst q1
        have hp : p ∈ L.f0.starts .var := by rwa [show (a.st L).f0.starts .var = L.f0.starts .var from dec_starts ..] at hp
        obtain ⟨a2, w1, w2, w3⟩ := varStep_inv hL q2 hp hst
        exact ⟨a2, w1, w2, varStep_clear hL q2 ht q3 hp hst⟩) e1
    obtain ⟨a1, q1, q2, q3⟩ := hv
    dsimp only at hs
    rw [q1] at hs q3
    generalize (if v.progress = true then pass else pass + 1) = ps at hs
    split at hs
    · exact ih _ a1 s q2 q3 hs
    · cases hs; exact q3

theorem newVarStep_clear {L : GSt} {a : AnSt} (hL : LOk L) (h : Inv L a) (hn1 : L.f1.Named) {B0 B1 : GBlock} {t : List Byte}
    (ht : Settled L B0 B1 t) (hk : VarsKept L a.P0) {p : Nat} (hp : p ∈ L.f1.starts .var)
    (hc : mapOf a.r1 t = none) {f : GFile} (hs : newVarStep (a.st L).f1 p = some f) : mapOf f.ren t = none := by
  obtain ⟨c1, hc1, hty, rfl⟩ := (starts_mem hL.st1).mp hp
  unfold newVarStep at hs
  rw [at_dec1 hL hc1] at hs
  dsimp only at hs
  split at hs
  · cases hs; exact hc
  rename_i hpair
  unfold addSuffix at hs
  rw [Option.map_eq_some_iff] at hs
  obtain ⟨r, e, rfl⟩ := hs
  show mapOf r t = none
  rw [renameAdd_eq h.ok1 (hL.ok1 c1 hc1).1 (kpz_ok _) e, if_neg]
  · exact hc
  rintro ⟨q1, _⟩
  have q1 : c1.name.text = t := q1.symm
  obtain ⟨b0, hb0, e0, ety, hau, htt⟩ := ht.n1 c1 hc1 (Or.inr hty) q1
  rw [hty] at ety
  rw [ety] at htt
  have hv := (htt.resolve_left (by decide)).2
  cases hpp : a.P0 b0.start with
  | none =>
    rw [hk b0 hb0 ety hpp] at hv
    cases hv
  | some q =>
    obtain ⟨d1, hd1, rfl, hm⟩ := h.mat b0 hb0 q hpp
    have hm : b0.name.text = d1.name.text := by
      rcases hm with e | ⟨e, _⟩
      · exact e
      · rw [hau] at e; cases e
    have hdc : d1.name.text = c1.name.text := hm.symm.trans (e0.trans q1.symm)
    have := hL.uniq1 d1 hd1 c1 hc1 hdc (by rw [hdc]; exact hn1 c1 hc1 (Or.inr hty))
    subst this
    exact hpair (h.rev b0 hb0 _ hpp)

theorem analyzeVars_clear {o : GenOpts} {L : GSt} (hL : LOk L) (hn1 : L.f1.Named) {B0 B1 : GBlock} {t : List Byte} (ht : Settled L B0 B1 t)
    {a : AnSt} {s : GSt} (h : Inv L a) (hc : Clear (a.st L) t) (hs : analyzeVars o (a.st L) = some s) : Clear s t := by
  unfold analyzeVars at hs
  rw [Option.bind_eq_some_iff] at hs
  obtain ⟨s1, e1, hs⟩ := hs
  unfold varMatches at e1
  rw [Option.bind_eq_some_iff] at e1
  obtain ⟨s0, e0, e1⟩ := e1
  have hc1 := varPasses_clear hL ht _ _ a s0 h hc e0
  obtain ⟨a1, rfl, hi, hr⟩ := varPasses_inv hL _ _ a s0 h e0
  split at e1
  case isFalse => cases e1
  rename_i hkept
  cases e1
  split at hs
  case isFalse => cases hs
  rw [Option.map_eq_some_iff] at hs
  obtain ⟨f, e2, rfl⟩ := hs
  have hk : VarsKept L a1.P0 := by
    intro b0 hb0 hty hp
    rw [List.all_eq_true] at hkept
    have := hkept (b0.dec a1.P0 noFlag noFlag) (dec_mem.mpr ⟨b0, hb0, rfl⟩)
    simp only [GBlock.dec, hty, ne_eq, not_true_eq_false, decide_false, Bool.false_or, hp, Option.isSome_none] at this
    exact this
  have hf := foldlM_inv (fun f : GFile => ∃ a', f = (a'.st L).f1 ∧ Inv L a' ∧ NewNames a1 a' ∧ mapOf f.ren t = none)
    ⟨a1, rfl, hi, .refl a1, hc1.2⟩
    (fun p f f' hp hf hst => by
      obtain ⟨a2, rfl, q2, q3, q4⟩ := hf
      have hp : p ∈ L.f1.starts .var := by rwa [show (a1.st L).f1.starts .var = L.f1.starts .var from dec_starts ..] at hp
      obtain ⟨a3, w1, w2, w3⟩ := newVarStep_inv hL q2 hst
      exact ⟨a3, w1, w2, q3.trans w3, newVarStep_clear hL q2 hn1 ht (by rw [q3.P0]; exact hk) hp q4 hst⟩) e2
  obtain ⟨a2, rfl, hi2, hn, hm⟩ := hf
  exact ⟨hc1.1, hm⟩

/-! ### Functions -/

theorem kp0_ne (x : List Byte) : x ≠ x ++ kp0 := by
  intro e
  have := congrArg List.length e
  rw [List.length_append] at this
  have : 0 < kp0.length := by decide +kernel
  omega

theorem labelPair_same {f0 f1 : GFile} {b0 b1 : GBlock} (hl : List.Forall₂ SameLine (f0.lines b0) (f1.lines b1)) {x y : List Byte} :
    ¬ LabelPair (f0.labels b0) (f1.labels b1) x y := by
  have key : ∀ {l0 l1 : List Ln}, List.Forall₂ SameLine l0 l1 →
      List.Forall₂ SameLine (l0.filter fun l => l.dir = .label) (l1.filter fun l => l.dir = .label) := by
    intro l0 l1 h
    induction h with
    | nil => exact .nil
    | @cons a b l0 l1 hab hr ih =>
      rw [List.filter_cons, List.filter_cons, hab.2.1]
      split
      · exact .cons hab ih
      · exact ih
  have at' : ∀ {l0 l1 : List Ln}, List.Forall₂ SameLine l0 l1 → ∀ (i : Nat) (a b : Ln), l0[i]? = some a → l1[i]? = some b → a.text = b.text := by
    intro l0 l1 h
    induction h with
    | nil => intro i a b e; simp at e
    | @cons a b l0 l1 hab hr ih =>
      intro i c d e e'
      cases i with
      | zero => simp at e e'; rw [← e, ← e']; exact hab.1
      | succ i => exact ih i c d (by simpa using e) (by simpa using e')
  rintro ⟨i, a, b, h1, h2, h3, _⟩
  exact h3 (at' (key hl) i a b h1 h2)

/-- The function `B0` of the old file is the function `B1` of the new one. -/
structure SameFunc (L : GSt) (B0 B1 : GBlock) : Prop where
  m0 : B0 ∈ L.f0.bs
  m1 : B1 ∈ L.f1.bs
  ty : B0.ty = .func
  ty1 : B1.ty = .func
  auto : B0.auto = false
  name : B1.name.text = B0.name.text
  ne : B0.name.text ≠ []
  lines : List.Forall₂ SameLine (L.f0.lines B0) (L.f1.lines B1)

theorem SameFunc.pair {L : GSt} (hL : LOk L) {B0 B1 : GBlock} (h : SameFunc L B0 B1) {c1 : GBlock} (hc : c1 ∈ L.f1.bs)
    (hm : NameMatch B0 c1) : c1 = B1 := by
  rcases hm with e | ⟨e, _⟩
  · exact hL.uniq1 c1 hc B1 h.m1 (e.symm.trans h.name.symm) (by rw [← e]; exact h.ne)
  · rw [h.auto] at e; cases e

theorem pairFuncs_bal {L : GSt} {a : AnSt} (hL : LOk L) (h : Inv L a) {c0 c1 : GBlock} (h0 : c0 ∈ L.f0.bs) (h1 : c1 ∈ L.f1.bs)
    (hty : c0.ty = .func) (hm : NameMatch c0 c1) {P P' : Corresp} {I U I' U' : Nat → Bool} {s : GSt}
    (hs : pairFuncs (a.st L) (c0.dec P I U) (c1.dec P' I' U') = some s) {B0 B1 : GBlock} (hB : SameFunc L B0 B1) {t : List Byte}
    (ht : Settled L B0 B1 t) (hb : Bal (a.st L) t) : Bal s t := by
  unfold pairFuncs at hs
  rw [AnSt.setPair, funcLabels_eq, Option.bind_eq_some_iff] at hs
  obtain ⟨s1, e1, hs⟩ := hs
  rw [Option.map_eq_some_iff] at e1
  obtain ⟨t0, e1, rfl⟩ := e1
  rw [labels_dec, labels_dec] at e1
  dsimp only at e1
  obtain ⟨k1, k2⟩ := matchLabels_add _ _ _ _ h.ok0 e1
  have k3 := matchLabels_add_keeps _ _ _ _ h.ok0 e1
  have hn := ht.n01 c0 h0 (Or.inl hty) c1 h1 hm
  dsimp only [GBlock.dec] at hs
  rw [AnSt.del0, Option.bind_eq_some_iff] at hs
  obtain ⟨s2, e2, hs⟩ := hs
  rw [Option.map_eq_some_iff] at e2
  obtain ⟨t1, e2, rfl⟩ := e2
  dsimp only at e2
  rw [AnSt.add1, Option.bind_eq_some_iff] at hs
  obtain ⟨s3, e3, hs⟩ := hs
  rw [Option.map_eq_some_iff] at e3
  obtain ⟨t2, e3, rfl⟩ := e3
  dsimp only at e3
  have hko : (kpatchName c1.name).Ok := kpz_ok _
  rw [AnSt.add0, Option.map_eq_some_iff] at hs
  obtain ⟨t3, e4, rfl⟩ := hs
  dsimp only at e4
  have ok0 := (hL.ok0 c0 h0).1
  have ok1 := (hL.ok1 c1 h1).1
  obtain ⟨q1, q2⟩ := renameDel_map k1 ok0 e2
  have q3 := renameAdd_eq h.ok1 ok1 hko e3 t
  have q4 := renameAdd_eq q1 ok0 hko e4 t
  rw [kpatchName_text] at q3 q4
  by_cases hc : c0.name.text = t
  · have hc1 := hn.mp hc
    rw [hc1, if_pos ⟨rfl, kp0_ne t⟩] at q3
    rw [hc1, hc, if_pos ⟨rfl, kp0_ne t⟩] at q4
    exact Or.inr ⟨q4, q3⟩
  · have hc1 : ¬ c1.name.text = t := fun e => hc (hn.mpr e)
    rw [if_neg (fun e => hc1 e.1.symm)] at q3
    rw [if_neg (fun e => hc e.1.symm), q2, if_neg (fun e => hc e.symm)] at q4
    have e0 : mapOf t0 t = mapOf a.r0 t := by
      cases e : mapOf a.r0 t with
      | some y => exact k3 t y e
      | none =>
        cases e' : mapOf t0 t with
        | none => rfl
        | some y =>
          rcases k2 t y e' with w | w
          · rw [w] at e; cases e
          · exfalso
            have hl : L.f0.HasLabel c0 t := by
              obtain ⟨i, l, l', w1, _, _, w4, _⟩ := w
              exact ⟨l, List.mem_of_getElem? w1, w4.symm⟩
            rcases ht.l0 c0 h0 hl with w' | ⟨rfl, _⟩
            · exact hc w'.symm
            · have := hB.pair hL h1 hm
              subst this
              exact labelPair_same hB.lines w
    rw [e0] at q4
    rcases hb with ⟨b0, b1⟩ | ⟨b0, b1⟩
    · exact Or.inl ⟨q4.trans b0, q3.trans b1⟩
    · exact Or.inr ⟨q4.trans b0, q3.trans b1⟩

theorem exactFold_bal {L : GSt} {a : AnSt} (hL : LOk L) {s : GSt} (h : PInv L a [] a)
    (hfresh : ∀ b0 ∈ L.f0.bs, b0.ty = .func → a.P0 b0.start = none)
    (hs : ((a.st L).f0.starts .func).foldlM funcExactStep (a.st L) = some s) {B0 B1 : GBlock} (hB : SameFunc L B0 B1) {t : List Byte}
    (ht : Settled L B0 B1 t) (hb : Bal (a.st L) t) : Bal s t := by
  rw [show (a.st L).f0.starts .func = L.f0.starts .func from dec_starts ..] at hs
  have key := foldlM_nodup funcExactStep
    (fun pre s => (∃ a', s = a'.st L ∧ PInv L a pre a' ∧ ∀ b0 ∈ L.f0.bs, b0.ty = .func → b0.start ∉ pre → a'.P0 b0.start = none) ∧ Bal s t)
    (L.f0.starts .func) (by rw [starts_eq]; exact ofTy_nodup hL.st0 _) (a.st L) s ⟨⟨a, rfl, h, fun b0 hb ht _ => hfresh b0 hb ht⟩, hb⟩
    ?_ hs
  · exact key.2
  · rintro pre p s s' hp hpre ⟨⟨a1, rfl, hi, hnone⟩, hb⟩ hst
    refine ⟨exactStep_inv hL hp hpre hi hnone hst, ?_⟩
    obtain ⟨c0, hc0, hty, rfl⟩ := (starts_mem hL.st0).mp hp
    unfold funcExactStep at hst
    rw [at_dec0 hL hc0] at hst
    dsimp only at hst
    split at hst
    · cases hst; exact hb
    rw [show (a1.st L).f1.find (c0.dec a1.P0 noFlag noFlag).name = (L.f1.find c0.name).map (GBlock.dec a1.P1 a1.I a1.U) from
      dec_find ..] at hst
    cases hf : L.f1.find c0.name with
    | none => rw [hf] at hst; cases hst; exact hb
    | some c1 =>
      rw [hf] at hst
      dsimp only [Option.map_some] at hst
      have hc1 := find_some hf
      have hname := (kpstrcmp_zero (hL.ok1 c1 hc1.1).1 (hL.ok0 c0 hc0).1).mp hc1.2
      exact pairFuncs_bal hL hi.inv hc0 hc1.1 hty (Or.inl hname.symm) hst hB ht hb

/-- In the search by human name labels are renamed and renamed back. -/
theorem funcByHuman_bal {o : GenOpts} {cmp : Bool} {L : GSt} {a : AnSt} (hL : LOk L) (h : Inv L a) {c0 : GBlock} (hc0 : c0 ∈ L.f0.bs)
    (hau : c0.auto = true) {s : GSt} {res : Option GBlock} (hs : funcByHuman o cmp (a.st L) (c0.dec a.P0 noFlag noFlag) = some (s, res))
    {B0 B1 : GBlock} (hB : SameFunc L B0 B1) {t : List Byte} (ht : Settled L B0 B1 t) (hne : c0.name.text ≠ t) (hb : Bal (a.st L) t) : Bal s t := by
  unfold funcByHuman at hs
  rw [show (a.st L).f1.findHuman (c0.dec a.P0 noFlag noFlag).human = (L.f1.findHuman c0.human).map (GBlock.dec a.P1 a.I a.U) from
    dec_findHuman ..] at hs
  cases hf : L.f1.findHuman c0.human with
  | none => rw [hf] at hs; cases hs; exact hb
  | some c1 =>
    rw [hf] at hs
    dsimp only [Option.map_some] at hs
    split at hs
    · cases hs; exact hb
    split at hs
    · rw [funcLabels_eq, Option.bind_eq_some_iff] at hs
      obtain ⟨s1, e1, hs⟩ := hs
      rw [Option.map_eq_some_iff] at e1
      obtain ⟨t0, e1, rfl⟩ := e1
      rw [funcLabels_eq, Option.map_eq_some_iff] at hs
      obtain ⟨s2, e2, hs⟩ := hs
      rw [Option.map_eq_some_iff] at e2
      obtain ⟨t1, e2, rfl⟩ := e2
      cases hs
      obtain ⟨k1, k2⟩ := matchLabels_add _ _ _ _ h.ok0 e1
      obtain ⟨k3, k4⟩ := matchLabels_del _ _ _ _ k1 e2
      have k5 := matchLabels_add_keeps _ _ _ _ h.ok0 e1
      have k6 := matchLabels_del_keeps _ _ _ _ k1 e2
      have hlab : ¬ L.f0.HasLabel c0 t := by
        intro hl
        rcases ht.l0 c0 hc0 hl with w | ⟨rfl, _⟩
        · exact hne w.symm
        · rw [hB.auto] at hau; cases hau
      have e0 : mapOf t1 t = mapOf a.r0 t := by
        cases e : mapOf a.r0 t with
        | some y => exact k6 t y (k5 t y e) fun l hl e' => hlab ⟨l, hl, e'.symm⟩
        | none =>
          cases e' : mapOf t1 t with
          | none => rfl
          | some y =>
            rcases k2 t y (k4 t y e').1 with w | w
            · rw [w] at e; cases e
            · exfalso
              obtain ⟨i, l, l', w1, _, _, w4, _⟩ := w
              exact hlab ⟨l, List.mem_of_getElem? w1, w4.symm⟩
      rcases hb with ⟨b0, b1⟩ | ⟨b0, b1⟩
      · exact Or.inl ⟨e0.trans b0, b1⟩
      · exact Or.inr ⟨e0.trans b0, b1⟩
    · cases hs; exact hb

theorem autoFold_bal {o : GenOpts} {cmp : Bool} {L : GSt} {a0 a : AnSt} (hL : LOk L) {s : GSt} (h : PInv L a0 (L.f0.starts .func) a)
    (hs : ((a.st L).f0.starts .func).foldlM (funcAutoStep o cmp) (a.st L) = some s) {B0 B1 : GBlock} (hB : SameFunc L B0 B1) {t : List Byte}
    (ht : Settled L B0 B1 t) (hb : Bal (a.st L) t) : Bal s t := by
  rw [show (a.st L).f0.starts .func = L.f0.starts .func from dec_starts ..] at hs
  refine (foldlM_inv (fun s => (∃ a', s = a'.st L ∧ PInv L a0 (L.f0.starts .func) a') ∧ Bal s t) ⟨⟨a, rfl, h⟩, hb⟩
    (fun p s s' hp hi hst => ?_) hs).2
  obtain ⟨⟨a1, rfl, hi⟩, hb⟩ := hi
  refine ⟨funcAutoStep_inv hL hi hp (fun _ h => h) hst, ?_⟩
  obtain ⟨c0, hc0, hty, rfl⟩ := (starts_mem hL.st0).mp hp
  unfold funcAutoStep at hst
  rw [at_dec0 hL hc0] at hst
  dsimp only at hst
  split at hst
  · cases hst; exact hb
  rename_i hcond
  rw [not_or] at hcond
  have hau : c0.auto = true := by have : ¬ c0.auto = false := hcond.2; simpa using this
  rw [Option.bind_eq_some_iff] at hst
  obtain ⟨⟨s1, res⟩, e1, hst⟩ := hst
  have hb1 := funcByHuman_bal hL hi.inv hc0 hau e1 hB ht (ht.na c0 hc0 hty hau) hb
  obtain ⟨a2, rfl, hsh, hr1, hres⟩ := funcByHuman_shrink hL hi.inv.ok0 hi.inv.ok1 hc0 hau e1
  cases res with
  | none => cases hst; exact hb1
  | some b1 =>
    obtain ⟨c1, hc1, rfl, hm, hp1, _⟩ := hres b1 rfl
    exact pairFuncs_bal hL (hi.inv.shrink hsh) hc0 hc1 hty hm hst hB ht hb1

theorem newLabels_keep {t : List Byte} {nm : Kpstr} : ∀ (ls : List Ln) (f f' : GFile), RenOk f.ren → nm.Ok →
    (∀ l ∈ ls, firstTok l.text = t → firstTok l.text = nm.text) → newLabelsLoop f nm ls = some f' → RenOk f'.ren ∧ mapOf f'.ren t = mapOf f.ren t := by
  intro ls
  induction ls with
  | nil => intro f f' h hn hl hs; cases hs; exact ⟨h, rfl⟩
  | cons l r ih =>
    intro f f' h hn hl hs
    rw [newLabelsLoop] at hs
    dsimp only at hs
    split at hs
    · cases hs
    · split at hs
      · exact ih f f' h hn (fun x hx => hl x (by simp [hx])) hs
      · rename_i hne
        rw [Option.bind_eq_some_iff] at hs
        obtain ⟨f1, e1, hs⟩ := hs
        unfold addSuffix at e1
        rw [Option.map_eq_some_iff] at e1
        obtain ⟨r1, e1, rfl⟩ := e1
        have hko : (kpatchName (getToken (some l.text)).1).Ok := kpz_ok _
        obtain ⟨w1, w2⟩ := ih (f.withRen r1) f' (renameAdd_map h (getToken_ok _) hko e1).1 hn (fun x hx => hl x (by simp [hx])) hs
        refine ⟨w1, w2.trans ?_⟩
        show mapOf r1 t = _
        rw [renameAdd_eq h (getToken_ok _) hko e1, if_neg]
        rintro ⟨q, _⟩
        exact hne ((kpstrcmp_zero (getToken_ok _) hn).mpr (hl l (by simp) q.symm))

theorem find_of_name' {L : GSt} (hL : LOk L) {b : GBlock} (hb : b ∈ L.f1.bs) {nm : Kpstr} (ho : nm.Ok) (e : b.name.text = nm.text)
    (hne : b.name.text ≠ []) : L.f1.find nm = some b := by
  have h1 : kpstrcmp b.name nm = 0 := (kpstrcmp_zero (hL.ok1 b hb).1 ho).mpr e
  unfold GFile.find
  cases hf : L.f1.bs.find? fun b => decide (kpstrcmp b.name nm = 0) with
  | none =>
    have := List.find?_eq_none.mp hf b hb
    simp [h1] at this
  | some c =>
    have h2 : kpstrcmp c.name nm = 0 := by simpa using List.find?_some hf
    have hc := List.mem_of_find?_eq_some hf
    have h3 := (kpstrcmp_zero (hL.ok1 c hc).1 ho).mp h2
    rw [hL.uniq1 c hc b hb (h3.trans e.symm) (by rw [h3, ← e]; exact hne)]

theorem newFunc_keep {L : GSt} {a0 a : AnSt} (hL : LOk L) (hn1 : L.f1.Named) (h : PInv L a0 (L.f0.starts .func) a) {p : Nat} {f : GFile}
    (hp : p ∈ L.f1.starts .func) (hs : newFuncStep (a.st L).f1 p = some f)
    {B0 B1 : GBlock} (hB : SameFunc L B0 B1) {t : List Byte} (ht : Settled L B0 B1 t) : mapOf f.ren t = mapOf a.r1 t := by
  obtain ⟨c1, hc1, hty, rfl⟩ := (starts_mem hL.st1).mp hp
  unfold newFuncStep at hs
  rw [at_dec1 hL hc1] at hs
  dsimp only at hs
  split at hs
  · cases hs; rfl
  rename_i hnp
  have hnp : a.P1 c1.start = none := by
    have : ¬ (a.P1 c1.start).isSome = true := hnp
    simpa using this
  have hne1 := hn1 c1 hc1 (Or.inl hty)
  have hcB : c1 ≠ B1 := by
    rintro rfl
    have := (h.exact B0 hB.m0 hB.ty ((starts_mem hL.st0).mpr ⟨B0, hB.m0, hB.ty, rfl⟩) hB.auto hB.ne c1
      (find_of_name' hL hB.m1 (hL.ok0 B0 hB.m0).1 hB.name hne1)).2
    rw [hnp] at this
    cases this
  have hct : c1.name.text ≠ t := by
    intro e
    obtain ⟨b0, hb0, e0, ety, hau, _⟩ := ht.n1 c1 hc1 (Or.inl hty) e
    have := (h.exact b0 hb0 (ety.trans hty) ((starts_mem hL.st0).mpr ⟨b0, hb0, ety.trans hty, rfl⟩) hau (by rw [e0, ← e]; exact hne1) c1
      (find_of_name' hL hc1 (hL.ok0 b0 hb0).1 (e.trans e0.symm) hne1)).2
    rw [hnp] at this
    cases this
  split at hs
  · cases hs; rfl
  rw [Option.bind_eq_some_iff] at hs
  obtain ⟨f1, e1, hs⟩ := hs
  have key : RenOk f1.ren ∧ mapOf f1.ren t = mapOf a.r1 t ∧ f1.labels c1 = L.f1.labels c1 := by
    split at e1
    · unfold addSuffix at e1
      rw [Option.map_eq_some_iff] at e1
      obtain ⟨r, e1, rfl⟩ := e1
      have hko : (kpatchName c1.name).Ok := kpz_ok _
      refine ⟨(renameAdd_map h.inv.ok1 (hL.ok1 c1 hc1).1 hko e1).1, ?_, rfl⟩
      show mapOf r t = _
      rw [renameAdd_eq h.inv.ok1 (hL.ok1 c1 hc1).1 hko e1, if_neg (fun q => hct q.1.symm)]
    · cases e1; exact ⟨h.inv.ok1, rfl, rfl⟩
  unfold makeNewLabels at hs
  refine (newLabels_keep _ f1 f key.1 (hL.ok1 c1 hc1).1 (fun l hl e => ?_) hs).2.trans key.2.1
  have hl : l ∈ L.f1.labels c1 := by rw [← key.2.2]; exact hl
  rcases ht.l1 c1 hc1 ⟨l, hl, e⟩ with q | q
  · exact e.trans q
  · exact absurd q hcB

theorem Bal.eq {s s' : GSt} {t : List Byte} (h : Bal s t) (h0 : mapOf s'.f0.ren t = mapOf s.f0.ren t)
    (h1 : mapOf s'.f1.ren t = mapOf s.f1.ren t) : Bal s' t := by
  unfold Bal
  rw [h0, h1]
  exact h

/-- The block that corresponds to a block of the new file. -/
theorem Inv.partner {L : GSt} {a : AnSt} (hL : LOk L) (h : Inv L a) {c0 c1 : GBlock} (hc0 : c0 ∈ L.f0.bs) (hc1 : c1 ∈ L.f1.bs)
    (hp : a.P1 c1.start = some c0.start) : a.P0 c0.start = some c1.start ∧ NameMatch c0 c1 := by
  obtain ⟨d0, hd0, e0, hP⟩ := h.sym c1 hc1 _ hp
  have := start_inj hL.st0 hd0 hc0 e0
  subst this
  obtain ⟨d1, hd1, e1, hm⟩ := h.mat d0 hd0 _ hP
  have := start_inj hL.st1 hd1 hc1 e1
  subst this
  exact ⟨hP, hm⟩

/-- Blocks that correspond are functions or variables. -/
def PKinds (L : GSt) (P : Corresp) : Prop := ∀ b0 ∈ L.f0.bs, ∀ q, P b0.start = some q → b0.ty = .func ∨ b0.ty = .var

theorem del_bal {s : GSt} {a b : Kpstr} {t0 t1 : Renames} (h0 : RenOk s.f0.ren) (h1 : RenOk s.f1.ren) (ha : a.Ok) (hb : b.Ok)
    (e0 : renameDel s.f0.ren a = some t0) (e1 : renameDel s.f1.ren b = some t1) {t : List Byte} (hn : a.text = t ↔ b.text = t)
    (hbal : Bal s t) : Bal ⟨s.f0.withRen t0, s.f1.withRen t1⟩ t := by
  have q0 := (renameDel_map h0 ha e0).2 t
  have q1 := (renameDel_map h1 hb e1).2 t
  by_cases hc : a.text = t
  · rw [if_pos hc.symm] at q0
    rw [if_pos (hn.mp hc).symm] at q1
    exact Or.inl ⟨q0, q1⟩
  · rw [if_neg (fun e => hc e.symm)] at q0
    rw [if_neg (fun e => hc (hn.mpr e.symm))] at q1
    exact hbal.eq q0 q1

theorem funcListStep_bal {o : GenOpts} {L : GSt} {a0 a : AnSt} (hL : LOk L) (h : FInv o L a0 a) (hk : PKinds L a.P0) {p : Nat} {s : GSt}
    (hp : p ∈ L.f1.starts .func) (hs : funcListStep o (a.st L) p = some s) {B0 B1 : GBlock} {t : List Byte}
    (ht : Settled L B0 B1 t) (hb : Bal (a.st L) t) : Bal s t := by
  obtain ⟨c1, hc1, hty, rfl⟩ := (starts_mem hL.st1).mp hp
  unfold funcListStep at hs
  rw [at_dec1 hL hc1] at hs
  dsimp only at hs
  cases hbb : (c1.dec a.P1 a.I a.U).pair.bind (a.st L).f0.at with
  | none => rw [hbb] at hs; cases hs; exact hb
  | some b0 =>
    rw [hbb] at hs
    obtain ⟨c1', hc1', e1, _, c0, hc0, hpr, rfl⟩ := pair_at (at_dec1 hL hc1) hbb
    have := start_inj hL.st1 hc1' hc1 e1
    subst this
    dsimp only at hs
    rw [Option.map_eq_some_iff] at hs
    obtain ⟨s1, e1, hs⟩ := hs
    have hfirst : Bal s1 t := by
      split at e1
      · rw [AnSt.del1, Option.bind_eq_some_iff] at e1
        obtain ⟨s2, e2, e1⟩ := e1
        rw [Option.map_eq_some_iff] at e2
        obtain ⟨t1, e2, rfl⟩ := e2
        rw [AnSt.del0, Option.map_eq_some_iff] at e1
        obtain ⟨s3, e3, rfl⟩ := e1
        rw [Option.map_eq_some_iff] at e3
        obtain ⟨t0, e3, rfl⟩ := e3
        obtain ⟨hP, hm⟩ := h.inv.partner hL hc0 hc1' hpr
        exact del_bal (s := a.st L) h.inv.ok0 h.inv.ok1 (hL.ok0 c0 hc0).1 (hL.ok1 c1' hc1').1 e3 e2
          (ht.n01 c0 hc0 (hk c0 hc0 _ hP) c1' hc1' hm) hb
      · cases e1; exact hb
    split at hs <;> (subst hs; exact hfirst)

/-- The function is ignored. -/
def IgnAt (s : GSt) (p : Nat) : Prop := ∃ b, s.f1.at p = some b ∧ b.ignore = true

theorem funcSameStep_bal {o : GenOpts} {L : GSt} {a0 a : AnSt} (hL : LOk L) (h : FInv o L a0 a) (hk : PKinds L a.P0) {p : Nat} {bad bad' : Bool} {s : GSt}
    (hp : p ∈ L.f1.starts .func) (hs : funcSameStep o (a.st L, bad) p = some (s, bad')) {B0 B1 : GBlock} (hB : SameFunc L B0 B1)
    (hP : a.P1 B1.start = some B0.start)
    {T : List Byte → Prop} (hT : ∀ l ∈ L.f0.lines B0, ∀ x ∈ tokens (some l.text), T x.text)
    (ht : ∀ t, T t → Settled L B0 B1 t) (hb : ∀ t, T t → Bal (a.st L) t) :
    (∀ t, T t → Bal s t) ∧ (p = B1.start ∨ IgnAt (a.st L) B1.start → IgnAt s B1.start) := by
  obtain ⟨c1, hc1, hty, rfl⟩ := (starts_mem hL.st1).mp hp
  unfold funcSameStep at hs
  dsimp only at hs
  rw [at_dec1 hL hc1] at hs
  dsimp only at hs
  cases hbb : (c1.dec a.P1 a.I a.U).pair.bind (a.st L).f0.at with
  | none =>
    rw [hbb] at hs
    cases hs
    refine ⟨hb, fun hor => hor.elim (fun e => ?_) id⟩
    have := start_inj hL.st1 hc1 hB.m1 e
    subst this
    rw [show (c1.dec a.P1 a.I a.U).pair = some B0.start from hP, Option.bind_some, at_dec0 hL hB.m0] at hbb
    cases hbb
  | some b0 =>
    rw [hbb] at hs
    obtain ⟨c1', hc1', e1, _, c0, hc0, hpr, rfl⟩ := pair_at (at_dec1 hL hc1) hbb
    have := start_inj hL.st1 hc1' hc1 e1
    subst this
    obtain ⟨hP0, hm⟩ := h.inv.partner hL hc0 hc1' hpr
    dsimp only at hs
    split at hs
    · rename_i hig
      cases hs
      refine ⟨hb, fun hor => hor.elim (fun e => ?_) id⟩
      rw [← e]
      exact ⟨_, at_dec1 hL hc1', hig⟩
    split at hs
    · rw [AnSt.del0, Option.bind_eq_some_iff] at hs
      obtain ⟨s1, e1, hs⟩ := hs
      rw [Option.map_eq_some_iff] at e1
      obtain ⟨t0, e1, rfl⟩ := e1
      rw [AnSt.del1, Option.bind_eq_some_iff] at hs
      obtain ⟨s2, e2, hs⟩ := hs
      rw [Option.map_eq_some_iff] at e2
      obtain ⟨t1, e2, rfl⟩ := e2
      rw [AnSt.add0, Option.bind_eq_some_iff] at hs
      obtain ⟨s3, e3, hs⟩ := hs
      rw [Option.map_eq_some_iff] at e3
      obtain ⟨t2, e3, rfl⟩ := e3
      rw [AnSt.add1, Option.map_eq_some_iff] at hs
      obtain ⟨s4, e4, hs⟩ := hs
      rw [Option.map_eq_some_iff] at e4
      obtain ⟨t3, e4, rfl⟩ := e4
      have hs : _ = s ∧ _ = bad' := Prod.mk.inj hs
      obtain ⟨rfl, _⟩ := hs
      have k0 := (hL.ok0 c0 hc0).1
      have k1 := (hL.ok1 c1' hc1').1
      have r0 := (renameDel_map h.inv.ok0 k0 e1).1
      have r1 := (renameDel_map h.inv.ok1 k1 e2).1
      refine ⟨fun t hTt => ?_, fun hor => ?_⟩
      · have hn := (ht t hTt).n01 c0 hc0 (hk c0 hc0 _ hP0) c1' hc1' hm
        have hbal := del_bal (s := a.st L) h.inv.ok0 h.inv.ok1 k0 k1 e1 e2 hn (hb t hTt)
        have q0 := renameAdd_eq r0 k0 k1 e3 t
        have q1 := renameAdd_eq r1 k1 k0 e4 t
        rw [if_neg (fun q => q.2 (by rw [← q.1]; exact (hn.mp q.1.symm).symm))] at q0
        rw [if_neg (fun q => q.2 (by rw [← q.1]; exact (hn.mpr q.1.symm).symm))] at q1
        exact hbal.eq q0 q1
      · by_cases hc : B1.start = c1'.start
        · have := start_inj hL.st1 hB.m1 hc1' hc
          subst this
          refine ⟨B1.dec a.P1 (setAt a.I B1.start true) a.U, ?_, ?_⟩
          · show (GFile.upd (L.f1.dec a.P1 a.I a.U t3) _ _).at B1.start = _
            rw [dec_ignore, dec_at, at_of_mem hL.st1 hB.m1]
            rfl
          · exact setAt_same ..
        · rcases hor with hor | hor
          · exact absurd hor.symm hc
          · obtain ⟨b, hb1, hb2⟩ := hor
            rw [at_dec1 hL hB.m1] at hb1
            cases hb1
            refine ⟨B1.dec a.P1 (setAt a.I c1'.start true) a.U, ?_, ?_⟩
            · show (GFile.upd (L.f1.dec a.P1 a.I a.U t3) _ _).at B1.start = _
              rw [dec_ignore, dec_at, at_of_mem hL.st1 hB.m1]
              rfl
            · exact (setAt_ne _ _ hc).trans hb2
    · rename_i hdiff
      have hcB : c1' ≠ B1 := by
        rintro rfl
        rw [hP] at hpr
        have := start_inj hL.st0 hB.m0 hc0 (Option.some.inj hpr)
        subst this
        exact hdiff (cblockSame_of h.inv.ok0 h.inv.ok1 hB.lines fun l hl x hx => hb _ (hT l hl x hx))
      rw [Option.map_eq_some_iff] at hs
      obtain ⟨f, e1, hs⟩ := hs
      have hs : _ = s ∧ _ = bad' := Prod.mk.inj hs
      obtain ⟨rfl, _⟩ := hs
      refine ⟨fun t hTt => (hb t hTt).eq rfl ?_, fun hor => ?_⟩
      · unfold makeNewLabels at e1
        refine (newLabels_keep _ (a.st L).f1 f h.inv.ok1 (hL.ok1 c1' hc1').1 (fun l hl e => ?_) e1).2
        rcases (ht t hTt).l1 c1' hc1' ⟨l, hl, e⟩ with q | q
        · exact e.trans q
        · exact absurd q hcB
      · rcases hor with hor | hor
        · exact absurd (start_inj hL.st1 hc1' hB.m1 hor) hcB
        · obtain ⟨a1, rfl, q2, q3⟩ := makeNewLabels_inv h.inv e1
          obtain ⟨b, hb1, hb2⟩ := hor
          refine ⟨b, ?_, hb2⟩
          rw [← hb1]
          show (L.f1.dec a1.P1 a1.I a1.U a1.r1).at B1.start = (L.f1.dec a.P1 a.I a.U a.r1).at B1.start
          rw [dec_at, dec_at, q3.P1, q3.I, q3.U]

theorem analyzeFuncs_same {o : GenOpts} {L : GSt} {a : AnSt} (hL : LOk L) (hn1 : L.f1.Named) (h : Inv L a) (hI : a.I = noFlag) (hU : a.U = noFlag)
    (hfresh : ∀ b0 ∈ L.f0.bs, b0.ty ≠ .var → a.P0 b0.start = none) {s : GSt}
    (hs : analyzeFuncs o (a.st L) = some s) {B0 B1 : GBlock} (hB : SameFunc L B0 B1)
    {T : List Byte → Prop} (hT : ∀ l ∈ L.f0.lines B0, ∀ x ∈ tokens (some l.text), T x.text)
    (ht : ∀ t, T t → Settled L B0 B1 t) (hb : ∀ t, T t → Bal (a.st L) t) : IgnAt s B1.start := by
  have hff : ∀ b0 ∈ L.f0.bs, b0.ty = .func → a.P0 b0.start = none := fun b0 hb ht => hfresh b0 hb (by rw [ht]; decide)
  unfold analyzeFuncs at hs
  rw [Option.bind_eq_some_iff] at hs
  obtain ⟨s1, e1, hs⟩ := hs
  have h0 : PInv L a [] a := ⟨h, hI, hU, fun _ _ h => h, fun _ _ _ => rfl,
    fun b0 hb ht b1 _ e => (by rw [hff b0 hb ht] at e; cases e), fun _ _ _ hm => by cases hm⟩
  have hb1 := fun t hTt => exactFold_bal hL h0 hff e1 hB (ht t hTt) (hb t hTt)
  obtain ⟨a1, rfl, h1⟩ := exactFold_inv hL h0 hff e1
  rw [Option.bind_eq_some_iff] at hs
  obtain ⟨s2, e2, hs⟩ := hs
  have hb2 := fun t hTt => autoFold_bal hL h1 e2 hB (ht t hTt) (hb1 t hTt)
  obtain ⟨a2, rfl, h2⟩ := autoFold_inv hL h1 e2
  rw [Option.bind_eq_some_iff] at hs
  obtain ⟨s3, e3, hs⟩ := hs
  have hb3 := fun t hTt => autoFold_bal hL h2 e3 hB (ht t hTt) (hb2 t hTt)
  obtain ⟨a3, rfl, h3⟩ := autoFold_inv hL h2 e3
  rw [Option.bind_eq_some_iff] at hs
  obtain ⟨f4, e4, hs⟩ := hs
  have hstarts : ∀ b : AnSt, (b.st L).f1.starts .func = L.f1.starts .func := fun b => dec_starts ..
  rw [hstarts] at e4
  have hf4 := foldlM_inv (fun f : GFile => ∃ a', f = (a'.st L).f1 ∧ Inv L a' ∧ NewNames a3 a' ∧ ∀ t, T t → mapOf f.ren t = mapOf a3.r1 t)
    ⟨a3, rfl, h3.inv, .refl a3, fun _ _ => rfl⟩
    (fun p f f' hp hf hst => by
      obtain ⟨b, rfl, q2, q3, q4⟩ := hf
      obtain ⟨c, w1, w2, w3⟩ := newFuncStep_inv hL q2 hst
      exact ⟨c, w1, w2, q3.trans w3, fun t hTt => (newFunc_keep hL hn1 (h3.newNames q2 q3) hp hst hB (ht t hTt)).trans (q4 t hTt)⟩) e4
  obtain ⟨a4, rfl, hi4, hn4, hm4⟩ := hf4
  have h4 := h3.newNames hi4 hn4
  have e34 : ({ a3.st L with f1 := (a4.st L).f1 } : GSt) = a4.st L := by
    unfold AnSt.st; dsimp only; rw [hn4.P0, hn4.r0]
  have hb4 : ∀ t, T t → Bal (a4.st L) t := fun t hTt => (hb3 t hTt).eq (by show mapOf a4.r0 t = mapOf a3.r0 t; rw [hn4.r0]) (hm4 t hTt)
  rw [e34, Option.bind_eq_some_iff] at hs
  obtain ⟨s5, e5, hs⟩ := hs
  rw [hstarts] at e5
  have hF4 : FInv o L a4 a4 := ⟨h4.inv, rfl, rfl, fun b0 hb ht b1 hb1 e _ _ => h4.new1 b0 hb ht b1 hb1 e,
    fun b1 _ hig => (by rw [h4.I] at hig; cases hig), fun b1 _ hu => by rw [h4.U] at hu; cases hu⟩
  have hk4 : PKinds L a4.P0 := by
    intro b0 hb0 q e
    by_contra hc
    rw [not_or] at hc
    rw [h4.others b0 hb0 hc.1, hfresh b0 hb0 hc.2] at e
    cases e
  have hP4 : a4.P1 B1.start = some B0.start :=
    (h4.exact B0 hB.m0 hB.ty ((starts_mem hL.st0).mpr ⟨B0, hB.m0, hB.ty, rfl⟩) hB.auto hB.ne B1
      (find_of_name' hL hB.m1 (hL.ok0 B0 hB.m0).1 hB.name (by rw [hB.name]; exact hB.ne))).2
  have h5 := foldlM_inv (fun s => (∃ a', s = a'.st L ∧ FInv o L a4 a') ∧ ∀ t, T t → Bal s t) ⟨⟨a4, rfl, hF4⟩, hb4⟩
    (fun p s s' hp hi hst => by
      obtain ⟨⟨b, rfl, hi⟩, hb⟩ := hi
      exact ⟨funcListStep_inv hL hi hp hst, fun t hTt => funcListStep_bal hL hi (by rw [hi.P0]; exact hk4) hp hst (ht t hTt) (hb t hTt)⟩) e5
  obtain ⟨⟨a5, rfl, h5⟩, hb5⟩ := h5
  rw [Option.bind_eq_some_iff] at hs
  obtain ⟨⟨s6, bad⟩, e6, hs⟩ := hs
  rw [hstarts] at e6
  have h6 := foldlM_nodup (funcSameStep o)
    (fun pre x => (∃ a', x.1 = a'.st L ∧ FInv o L a4 a') ∧ (∀ t, T t → Bal x.1 t) ∧ (B1.start ∈ pre → IgnAt x.1 B1.start))
    (L.f1.starts .func) (by rw [starts_eq]; exact ofTy_nodup hL.st1 _) (a5.st L, false) (s6, bad)
    ⟨⟨a5, rfl, h5⟩, hb5, fun h => by cases h⟩ ?_ e6
  · dsimp only at hs
    split at hs
    · cases hs
    cases hs
    exact h6.2.2 ((starts_mem hL.st1).mpr ⟨B1, hB.m1, hB.ty1, rfl⟩)
  · rintro pre p ⟨x, bd⟩ ⟨x', bd'⟩ hp hpre ⟨⟨b, e, hi⟩, hbb, hig⟩ hst
    dsimp only at e hbb hig
    subst e
    refine ⟨funcSameStep_inv hL hi hp hst, ?_⟩
    obtain ⟨w1, w2⟩ := funcSameStep_bal hL hi (by rw [hi.P0]; exact hk4) hp hst hB (by rw [hi.P1]; exact hP4) hT ht hbb
    refine ⟨w1, fun hm => ?_⟩
    rw [List.mem_append, List.mem_singleton] at hm
    exact w2 (hm.elim (fun hm => Or.inr (hig hm)) fun e => Or.inl e.symm)

end Verif
