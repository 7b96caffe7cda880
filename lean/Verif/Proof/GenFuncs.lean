import Verif.Proof.GenVars
/-
The analysis of functions keeps the invariant.
-/
namespace Verif

variable [AsmTarget]

/-! ### Labels -/

/-- The same place in two lists of labels. -/
def LabelPair (l0 l1 : List Ln) (x y : List Byte) : Prop :=
  ∃ (i : Nat) (a b : Ln), l0[i]? = some a ∧ l1[i]? = some b ∧ a.text ≠ b.text ∧ x = firstTok a.text ∧ y = firstTok b.text

theorem LabelPair.cons {l0 l1 : List Ln} {x y : List Byte} {a b : Ln} (h : LabelPair l0 l1 x y) : LabelPair (a :: l0) (b :: l1) x y := by
  obtain ⟨i, c, d, h1, h2, h3⟩ := h
  exact ⟨i + 1, c, d, by simpa using h1, by simpa using h2, h3⟩

theorem matchLabels_add : ∀ (l0 l1 : List Ln) (r r' : Renames), RenOk r → matchLabels true r l0 l1 = some r' →
    RenOk r' ∧ ∀ x y, mapOf r' x = some y → mapOf r x = some y ∨ LabelPair l0 l1 x y := by
  intro l0
  induction l0 with
  | nil =>
    intro l1 r r' h hm
    rw [matchLabels] at hm
    · cases hm; exact ⟨h, fun _ _ e => Or.inl e⟩
    · intro a l b l' e; cases e
  | cons a l0 ih =>
    intro l1 r r' h hm
    cases l1 with
    | nil =>
      rw [matchLabels] at hm
      · cases hm; exact ⟨h, fun _ _ e => Or.inl e⟩
      · intro a l b l' e1 e2; cases e2
    | cons b l1 =>
      rw [matchLabels] at hm
      split at hm
      · obtain ⟨q1, q2⟩ := ih l1 r r' h hm
        exact ⟨q1, fun x y e => (q2 x y e).imp id .cons⟩
      · rename_i hne
        dsimp only at hm
        rw [if_pos rfl, Option.bind_eq_some_iff] at hm
        obtain ⟨r1, e1, hm⟩ := hm
        split at hm
        case isFalse => cases hm
        obtain ⟨k1, k2, _, _⟩ := renameAdd_map h (getToken_ok _) (getToken_ok _) e1
        obtain ⟨q1, q2⟩ := ih l1 r1 r' k1 hm
        refine ⟨q1, fun x y e => ?_⟩
        rcases q2 x y e with e | e
        · rcases k2 x y e with e | ⟨e, e'⟩
          · exact Or.inl e
          · exact Or.inr ⟨0, a, b, rfl, rfl, hne, e, e'⟩
        · exact Or.inr e.cons

theorem matchLabels_del : ∀ (l0 l1 : List Ln) (r r' : Renames), RenOk r → matchLabels false r l0 l1 = some r' →
    RenOk r' ∧ ∀ x y, mapOf r' x = some y → mapOf r x = some y ∧ ∀ z, ¬ LabelPair l0 l1 x z := by
  intro l0
  induction l0 with
  | nil =>
    intro l1 r r' h hm
    rw [matchLabels] at hm
    · cases hm
      refine ⟨h, fun _ _ e => ⟨e, ?_⟩⟩
      rintro z ⟨i, a, b, h1, _⟩
      simp at h1
    · intro a l b l' e; cases e
  | cons a l0 ih =>
    intro l1 r r' h hm
    cases l1 with
    | nil =>
      rw [matchLabels] at hm
      · cases hm
        refine ⟨h, fun _ _ e => ⟨e, ?_⟩⟩
        rintro z ⟨i, a, b, h1, h2, _⟩
        simp at h2
      · intro a l b l' e1 e2; cases e2
    | cons b l1 =>
      rw [matchLabels] at hm
      split at hm
      · rename_i heq
        obtain ⟨q1, q2⟩ := ih l1 r r' h hm
        refine ⟨q1, fun x y e => ⟨(q2 x y e).1, ?_⟩⟩
        rintro z ⟨i, c, d, h1, h2, h3, h4⟩
        cases i with
        | zero => simp at h1 h2; subst h1; subst h2; exact h3 heq
        | succ i => exact (q2 x y e).2 z ⟨i, c, d, by simpa using h1, by simpa using h2, h3, h4⟩
      · rename_i hne
        dsimp only at hm
        rw [if_neg (by decide), Option.bind_eq_some_iff] at hm
        obtain ⟨r1, e1, hm⟩ := hm
        split at hm
        case isFalse => cases hm
        obtain ⟨k1, k2⟩ := renameDel_map h (getToken_ok _) e1
        obtain ⟨q1, q2⟩ := ih l1 r1 r' k1 hm
        refine ⟨q1, fun x y e => ?_⟩
        obtain ⟨w1, w2⟩ := q2 x y e
        rw [k2] at w1
        split at w1
        · cases w1
        · rename_i hx
          refine ⟨w1, ?_⟩
          rintro z ⟨i, c, d, h1, h2, h3, h4, h5⟩
          cases i with
          | zero => simp at h1 h2; subst h1; subst h2; exact hx h4
          | succ i => exact w2 z ⟨i, c, d, by simpa using h1, by simpa using h2, h3, h4, h5⟩

theorem funcLabels_eq (add : Bool) (L : GSt) (a : AnSt) (b0 b1 : GBlock) : funcLabels add (a.st L) b0 b1 =
    (matchLabels add a.r0 (L.f0.labels b0) (L.f1.labels b1)).map fun r => ({ a with r0 := r } : AnSt).st L := rfl

theorem labels_dec (f : GFile) (P : Corresp) (I U : Nat → Bool) (b : GBlock) : f.labels (b.dec P I U) = f.labels b := rfl

/-- Induction over a loop over different elements. -/
theorem foldlM_nodup {β σ : Type} (f : σ → β → Option σ) (P : List β → σ → Prop) (l : List β) (hn : l.Nodup) (s s' : σ) (h0 : P [] s)
    (hstep : ∀ pre x s s', x ∈ l → x ∉ pre → P pre s → f s x = some s' → P (pre ++ [x]) s') (h : l.foldlM f s = some s') : P l s' := by
  have main : ∀ (suf pre : List β) (s : σ), l = pre ++ suf → P pre s → suf.foldlM f s = some s' → P l s' := by
    intro suf
    induction suf with
    | nil =>
      intro pre s e hp hs
      simp only [List.foldlM_nil, Option.pure_def, Option.some.injEq] at hs
      rw [e, List.append_nil, ← hs]
      exact hp
    | cons x suf ih =>
      intro pre s e hp hs
      rw [List.foldlM_cons, Option.bind_eq_bind, Option.bind_eq_some_iff] at hs
      obtain ⟨s1, e1, hs⟩ := hs
      refine ih (pre ++ [x]) s1 (by rw [e]; simp) (hstep pre x s s1 (by rw [e]; simp) ?_ hp e1) hs
      rw [e, List.nodup_append] at hn
      intro hx
      exact hn.2.2 x hx x (by simp) rfl
  exact main l [] s rfl h0 h

/-! ### Pairs -/

theorem pairFuncs_inv {L : GSt} {a : AnSt} (hL : LOk L) (h : Inv L a) {c0 c1 : GBlock} (h0 : c0 ∈ L.f0.bs) (h1 : c1 ∈ L.f1.bs)
    (hp : a.P0 c0.start = none) (hm : NameMatch c0 c1) {P P' : Corresp} {I U I' U' : Nat → Bool} {s : GSt}
    (hs : pairFuncs (a.st L) (c0.dec P I U) (c1.dec P' I' U') = some s) :
    ∃ a', s = a'.st L ∧ Inv L a' ∧ a'.P0 = setAt a.P0 c0.start (some c1.start) ∧ a'.P1 = setAt a.P1 c1.start (some c0.start) ∧
      a'.I = a.I ∧ a'.U = a.U ∧ (∀ x y, mapOf a.r1 x = some y → mapOf a'.r1 x = some y) ∧
      mapOf a'.r1 c1.name.text = some (c1.name.text ++ kp0) := by
  unfold pairFuncs at hs
  rw [AnSt.setPair, funcLabels_eq, Option.bind_eq_some_iff] at hs
  obtain ⟨s1, e1, hs⟩ := hs
  rw [Option.map_eq_some_iff] at e1
  obtain ⟨t0, e1, rfl⟩ := e1
  rw [labels_dec, labels_dec] at e1
  have hip := h.pair hL h0 h1 hp hm
  have hP : setAt a.P0 c0.start (some c1.start) c0.start = some c1.start := setAt_same ..
  obtain ⟨k1, k2⟩ := matchLabels_add _ _ _ _ hip.ok0 e1
  have hi1 : Inv L { a with P0 := setAt a.P0 c0.start (some c1.start), P1 := setAt a.P1 c1.start (some c0.start), r0 := t0 } := by
    refine ⟨k1, hip.ok1, fun x y e => ?_, hip.just1, hip.sym, hip.mat, hip.rev⟩
    rcases k2 x y e with e | ⟨i, l0, l1, q1, q2, _, q4, q5⟩
    · exact hip.just0 x y e
    · exact Or.inl ⟨c0, h0, c1, h1, hP, Or.inr ⟨i, l0, l1, q1, q2, q4, q5⟩⟩
  dsimp only [GBlock.dec] at hs
  rw [AnSt.del0, Option.bind_eq_some_iff] at hs
  obtain ⟨s2, e2, hs⟩ := hs
  rw [Option.map_eq_some_iff] at e2
  obtain ⟨t1, e2, rfl⟩ := e2
  have hi2 := hi1.del0 (hL.ok0 c0 h0).1 e2
  rw [AnSt.add1, Option.bind_eq_some_iff] at hs
  obtain ⟨s3, e3, hs⟩ := hs
  rw [Option.map_eq_some_iff] at e3
  obtain ⟨t2, e3, rfl⟩ := e3
  have hko : (kpatchName c1.name).Ok := kpz_ok _
  have hi3 := hi2.add1 (hL.ok1 c1 h1).1 hko (Or.inl (kpatchName_text _)) e3
  have hk := renameAdd_map hi2.ok1 (hL.ok1 c1 h1).1 hko e3
  rw [AnSt.add0, Option.map_eq_some_iff] at hs
  obtain ⟨t3, e4, rfl⟩ := hs
  have hi4 := hi3.add0 (hL.ok0 c0 h0).1 hko (Or.inr ⟨c0, h0, c1, h1, hP, rfl, kpatchName_text _⟩) e4
  refine ⟨_, rfl, hi4, rfl, rfl, rfl, rfl, hk.2.2.1, ?_⟩
  rw [← kpatchName_text]
  refine hk.2.2.2 fun e => ?_
  rw [kpatchName_text] at e
  have := congrArg List.length e
  rw [List.length_append] at this
  have : 0 < kp0.length := by decide +kernel
  omega

/-- While functions are paired. -/
structure PInv (L : GSt) (a0 : AnSt) (done : List Nat) (a : AnSt) : Prop where
  inv : Inv L a
  I : a.I = noFlag
  U : a.U = noFlag
  grows : Grows a0.P0 a.P0
  others : ∀ b0 ∈ L.f0.bs, b0.ty ≠ .func → a.P0 b0.start = a0.P0 b0.start
  new1 : ∀ b0 ∈ L.f0.bs, b0.ty = .func → ∀ b1 ∈ L.f1.bs, a.P0 b0.start = some b1.start →
    mapOf a.r1 b1.name.text = some (b1.name.text ++ kp0)
  exact : ∀ b0 ∈ L.f0.bs, b0.ty = .func → b0.start ∈ done → b0.auto = false → b0.name.text ≠ [] → ∀ b1, L.f1.find b0.name = some b1 →
    a.P0 b0.start = some b1.start ∧ a.P1 b1.start = some b0.start

theorem PInv.pair {L : GSt} {a0 a a' : AnSt} {done done' : List Nat} (hL : LOk L) (h : PInv L a0 done a) {c0 c1 : GBlock}
    (h0 : c0 ∈ L.f0.bs) (h1 : c1 ∈ L.f1.bs) (hp : a.P0 c0.start = none) (hty : c0.ty = .func) (hi : Inv L a')
    (hP0 : a'.P0 = setAt a.P0 c0.start (some c1.start)) (hP1 : a'.P1 = setAt a.P1 c1.start (some c0.start)) (hI : a'.I = a.I)
    (hU : a'.U = a.U) (hk : ∀ x y, mapOf a.r1 x = some y → mapOf a'.r1 x = some y)
    (hn : mapOf a'.r1 c1.name.text = some (c1.name.text ++ kp0))
    (hd : ∀ p ∈ done', p ∈ done ∨ p = c0.start)
    (hsep : ∀ b0 ∈ L.f0.bs, b0.start ≠ c0.start → ∀ b1, b0.name.text ≠ [] → L.f1.find b0.name = some b1 → a.P1 b1.start = some b0.start →
      b1.start ≠ c1.start)
    (hnew : c0.start ∉ done → c0.start ∈ done' → c0.auto = false → ∀ b1, L.f1.find c0.name = some b1 → b1.start = c1.start) :
    PInv L a0 done' a' := by
  refine ⟨hi, hI.trans h.I, hU.trans h.U, fun p q e => ?_, fun b0 hb ht => ?_, fun b0 hb ht b1 hb1 e => ?_,
    fun b0 hb ht hst ha hne b1 hf => ?_⟩
  · rw [hP0]; exact setAt_grows hp _ _ (h.grows p q e)
  · rw [hP0, setAt_ne]
    · exact h.others b0 hb ht
    · intro e
      have := start_inj hL.st0 hb h0 e
      subst this
      exact ht hty
  · rw [hP0] at e
    by_cases hb0 : b0.start = c0.start
    · rw [hb0, setAt_same] at e
      have := start_inj hL.st1 hb1 h1 (Option.some.inj e).symm
      subst this
      exact hn
    · rw [setAt_ne _ _ hb0] at e
      exact hk _ _ (h.new1 b0 hb ht b1 hb1 e)
  · rw [hP0, hP1]
    by_cases hb0 : b0.start = c0.start
    · by_cases hdn : c0.start ∈ done
      · have := (h.exact b0 hb ht (hb0 ▸ hdn) ha hne b1 hf).1
        rw [hb0, hp] at this
        cases this
      · have hb := start_inj hL.st0 hb h0 hb0
        subst hb
        have := hnew hdn hst ha b1 hf
        rw [this, setAt_same, setAt_same]
        exact ⟨rfl, rfl⟩
    · rw [setAt_ne _ _ hb0]
      have hdn : b0.start ∈ done := (hd _ hst).resolve_right hb0
      have := h.exact b0 hb ht hdn ha hne b1 hf
      rw [setAt_ne _ _ (hsep b0 hb hb0 b1 hne hf this.2)]
      exact this

theorem PInv.done {L : GSt} {a0 a : AnSt} {done done' : List Nat} (h : PInv L a0 done a)
    (hd : ∀ b0 ∈ L.f0.bs, b0.start ∈ done' → b0.start ∈ done ∨ b0.auto = true ∨ L.f1.find b0.name = none) : PInv L a0 done' a :=
  ⟨h.inv, h.I, h.U, h.grows, h.others, h.new1, fun b0 hb ht hst ha hne b1 hf => by
    rcases hd b0 hb hst with q | q | q
    · exact h.exact b0 hb ht q ha hne b1 hf
    · rw [q] at ha; cases ha
    · rw [q] at hf; cases hf⟩

theorem PInv.shrink {L : GSt} {a0 a a' : AnSt} {done : List Nat} (h : PInv L a0 done a) (hs : Shrink a a') (hr : a'.r1 = a.r1) :
    PInv L a0 done a' :=
  ⟨h.inv.shrink hs, hs.I.trans h.I, hs.U.trans h.U, by rw [hs.P0]; exact h.grows, by rw [hs.P0]; exact h.others,
    by rw [hs.P0, hr]; exact h.new1, by rw [hs.P0, hs.P1]; exact h.exact⟩

theorem exactStep_inv {L : GSt} {a a1 : AnSt} (hL : LOk L) {pre : List Nat} {p : Nat} {s' : GSt} (hp : p ∈ L.f0.starts .func)
    (hpre : p ∉ pre) (hi : PInv L a pre a1) (hnone : ∀ b0 ∈ L.f0.bs, b0.ty = .func → b0.start ∉ pre → a1.P0 b0.start = none)
    (hst : funcExactStep (a1.st L) p = some s') :
    ∃ a', s' = a'.st L ∧ PInv L a (pre ++ [p]) a' ∧ ∀ b0 ∈ L.f0.bs, b0.ty = .func → b0.start ∉ pre ++ [p] → a'.P0 b0.start = none := by
  obtain ⟨c0, hc0, hty, rfl⟩ := (starts_mem hL.st0).mp hp
  have hat : (a1.st L).f0.at c0.start = some (c0.dec a1.P0 noFlag noFlag) := by
    show (L.f0.dec a1.P0 noFlag noFlag a1.r0).at c0.start = _
    rw [dec_at, at_of_mem hL.st0 hc0]; rfl
  have hfind : (a1.st L).f1.find c0.name = (L.f1.find c0.name).map (GBlock.dec a1.P1 a1.I a1.U) := dec_find ..
  unfold funcExactStep at hst
  rw [hat] at hst
  dsimp only at hst
  split at hst
  · rename_i hauto
    cases hst
    refine ⟨a1, rfl, hi.done fun b0 hb hm => ?_, fun b0 hb ht hn => hnone b0 hb ht (fun hm => hn (by simp [hm]))⟩
    rcases List.mem_append.mp hm with hm | hm
    · exact Or.inl hm
    · rw [List.mem_singleton] at hm
      have := start_inj hL.st0 hb hc0 hm
      subst this
      exact Or.inr (Or.inl hauto)
  rw [show (c0.dec a1.P0 noFlag noFlag).name = c0.name from rfl, hfind] at hst
  cases hf : L.f1.find c0.name with
  | none =>
    rw [hf] at hst
    cases hst
    refine ⟨a1, rfl, hi.done fun b0 hb hm => ?_, fun b0 hb ht hn => hnone b0 hb ht (fun hm => hn (by simp [hm]))⟩
    rcases List.mem_append.mp hm with hm | hm
    · exact Or.inl hm
    · rw [List.mem_singleton] at hm
      have := start_inj hL.st0 hb hc0 hm
      subst this
      exact Or.inr (Or.inr hf)
  | some c1 =>
    rw [hf] at hst
    dsimp only [Option.map_some] at hst
    have hc1 := find_some hf
    have hname := (kpstrcmp_zero (hL.ok1 c1 hc1.1).1 (hL.ok0 c0 hc0).1).mp hc1.2
    have hn0 := hnone c0 hc0 hty hpre
    obtain ⟨a2, q1, q2, q3, q4, q5, q6, q7, q8⟩ := pairFuncs_inv hL hi.inv hc0 hc1.1 hn0 (Or.inl hname.symm) hst
    refine ⟨a2, q1, hi.pair hL hc0 hc1.1 hn0 hty q2 q3 q4 q5 q6 q7 q8 (fun p hp => ?_) (fun b0 hb hne b1 hbn hbf hbp e => ?_)
      (fun _ _ _ b1 hf' => ?_), fun b0 hb ht hn => ?_⟩
    · simpa using hp
    · have hb1 := find_some hbf
      have e := start_inj hL.st1 hb1.1 hc1.1 e
      subst e
      have hn2 := (kpstrcmp_zero (hL.ok1 b1 hb1.1).1 (hL.ok0 b0 hb).1).mp hb1.2
      have := hL.uniq0 b0 hb c0 hc0 (hn2.symm.trans hname) hbn
      rw [this] at hne
      exact hne rfl
    · rw [hf] at hf'; cases hf'; rfl
    · rw [q3, setAt_ne]
      · exact hnone b0 hb ht (fun hm => hn (by simp [hm]))
      · intro e; exact hn (by simp [e])

theorem exactFold_inv {L : GSt} {a : AnSt} (hL : LOk L) {s : GSt} (h : PInv L a [] a)
    (hfresh : ∀ b0 ∈ L.f0.bs, b0.ty = .func → a.P0 b0.start = none)
    (hs : ((a.st L).f0.starts .func).foldlM funcExactStep (a.st L) = some s) :
    ∃ a', s = a'.st L ∧ PInv L a (L.f0.starts .func) a' := by
  rw [show (a.st L).f0.starts .func = L.f0.starts .func from dec_starts ..] at hs
  have key := foldlM_nodup funcExactStep
    (fun pre s => ∃ a', s = a'.st L ∧ PInv L a pre a' ∧ ∀ b0 ∈ L.f0.bs, b0.ty = .func → b0.start ∉ pre → a'.P0 b0.start = none)
    (L.f0.starts .func) (by rw [starts_eq]; exact ofTy_nodup hL.st0 _) (a.st L) s ⟨a, rfl, h, fun b0 hb ht _ => hfresh b0 hb ht⟩
    (by rintro pre p s s' hp hpre ⟨a1, rfl, hi, hnone⟩ hst; exact exactStep_inv hL hp hpre hi hnone hst) hs
  obtain ⟨a', q1, q2, _⟩ := key
  exact ⟨a', q1, q2⟩

theorem funcByHuman_shrink {o : GenOpts} {cmp : Bool} {L : GSt} {a : AnSt} (hL : LOk L) (h0 : RenOk a.r0) (h1 : RenOk a.r1) {c0 : GBlock}
    (hc0 : c0 ∈ L.f0.bs) (hau : c0.auto = true) {s : GSt} {res : Option GBlock}
    (hs : funcByHuman o cmp (a.st L) (c0.dec a.P0 noFlag noFlag) = some (s, res)) :
    ∃ a', s = a'.st L ∧ Shrink a a' ∧ a'.r1 = a.r1 ∧ ∀ b, res = some b → ∃ c ∈ L.f1.bs, b = c.dec a.P1 a.I a.U ∧
      NameMatch c0 c ∧ a.P1 c.start = none ∧ c.auto = true := by
  unfold funcByHuman at hs
  rw [show (a.st L).f1.findHuman (c0.dec a.P0 noFlag noFlag).human = (L.f1.findHuman c0.human).map (GBlock.dec a.P1 a.I a.U) from
    dec_findHuman ..] at hs
  cases hf : L.f1.findHuman c0.human with
  | none =>
    rw [hf] at hs
    cases hs
    exact ⟨a, rfl, Shrink.refl h0 h1, rfl, fun b e => by cases e⟩
  | some c1 =>
    rw [hf] at hs
    dsimp only [Option.map_some] at hs
    have hc1 := findHuman_some hf
    have hname := (kpstrcmp_zero (hL.ok1 c1 hc1.1).2.1 (hL.ok0 c0 hc0).2.1).mp hc1.2
    split at hs
    · cases hs
      exact ⟨a, rfl, Shrink.refl h0 h1, rfl, fun b e => by cases e⟩
    rename_i hcond
    rw [not_or] at hcond
    have ha1 : c1.auto = true := by
      have : ¬ c1.auto = false := hcond.1
      simpa using this
    have hp1 : a.P1 c1.start = none := by
      have : ¬ (a.P1 c1.start).isSome = true := hcond.2
      simpa using this
    split at hs
    · rw [funcLabels_eq, Option.bind_eq_some_iff] at hs
      obtain ⟨s1, e1, hs⟩ := hs
      rw [Option.map_eq_some_iff] at e1
      obtain ⟨t0, e1, rfl⟩ := e1
      rw [funcLabels_eq, Option.map_eq_some_iff] at hs
      obtain ⟨s2, e2, hs⟩ := hs
      rw [Option.map_eq_some_iff] at e2
      obtain ⟨t1, e2, rfl⟩ := e2
      cases hs
      obtain ⟨k1, k2⟩ := matchLabels_add _ _ _ _ h0 e1
      obtain ⟨k3, k4⟩ := matchLabels_del _ _ _ _ k1 e2
      refine ⟨_, rfl, ⟨rfl, rfl, rfl, rfl, k3, h1, fun x y e => ?_, fun _ _ e => e⟩, rfl, fun b e => ?_⟩
      · obtain ⟨w1, w2⟩ := k4 x y e
        exact (k2 x y w1).resolve_right (w2 y)
      · split at e
        · cases e
          exact ⟨c1, hc1.1, rfl, Or.inr ⟨hau, hname.symm⟩, hp1, ha1⟩
        · cases e
    · cases hs
      exact ⟨a, rfl, Shrink.refl h0 h1, rfl, fun b e => by cases e; exact ⟨c1, hc1.1, rfl, Or.inr ⟨hau, hname.symm⟩, hp1, ha1⟩⟩

theorem funcAutoStep_inv {o : GenOpts} {cmp : Bool} {L : GSt} {a0 a : AnSt} (hL : LOk L) {done : List Nat} (h : PInv L a0 done a) {p : Nat} {s : GSt}
    (hp : p ∈ L.f0.starts .func) (hdone : ∀ q ∈ L.f0.starts .func, q ∈ done)
    (hs : funcAutoStep o cmp (a.st L) p = some s) : ∃ a', s = a'.st L ∧ PInv L a0 done a' := by
  obtain ⟨c0, hc0, hty, rfl⟩ := (starts_mem hL.st0).mp hp
  have hat : (a.st L).f0.at c0.start = some (c0.dec a.P0 noFlag noFlag) := by
    show (L.f0.dec a.P0 noFlag noFlag a.r0).at c0.start = _
    rw [dec_at, at_of_mem hL.st0 hc0]; rfl
  unfold funcAutoStep at hs
  rw [hat] at hs
  dsimp only at hs
  split at hs
  · cases hs; exact ⟨a, rfl, h⟩
  rename_i hcond
  rw [not_or] at hcond
  have hn0 : a.P0 c0.start = none := by
    have : ¬ (a.P0 c0.start).isSome = true := hcond.1
    simpa using this
  rw [Option.bind_eq_some_iff] at hs
  obtain ⟨⟨s1, res⟩, e1, hs⟩ := hs
  obtain ⟨a1, rfl, hsh, hr1, hres⟩ := funcByHuman_shrink hL h.inv.ok0 h.inv.ok1 hc0 (by have : ¬ c0.auto = false := hcond.2; simpa using this) e1
  have h' := h.shrink hsh hr1
  cases res with
  | none => cases hs; exact ⟨a1, rfl, h'⟩
  | some b1 =>
    obtain ⟨c1, hc1, rfl, hm, hp1, _⟩ := hres b1 rfl
    have hn1 : a1.P0 c0.start = none := by rw [hsh.P0]; exact hn0
    dsimp only at hs
    obtain ⟨a2, q1, q2, q3, q4, q5, q6, q7, q8⟩ := pairFuncs_inv hL h'.inv hc0 hc1 hn1 hm hs
    refine ⟨a2, q1, h'.pair hL hc0 hc1 hn1 hty q2 q3 q4 q5 q6 q7 q8 (fun p hp => Or.inl hp) (fun b0 hb hne b1 hbn hbf hbp e => ?_)
      (fun hnd => absurd (hdone _ hp) hnd)⟩
    rw [e, hsh.P1, hp1] at hbp
    cases hbp

theorem autoFold_inv {o : GenOpts} {cmp : Bool} {L : GSt} {a0 a : AnSt} (hL : LOk L) {s : GSt} (h : PInv L a0 (L.f0.starts .func) a)
    (hs : ((a.st L).f0.starts .func).foldlM (funcAutoStep o cmp) (a.st L) = some s) :
    ∃ a', s = a'.st L ∧ PInv L a0 (L.f0.starts .func) a' := by
  rw [show (a.st L).f0.starts .func = L.f0.starts .func from dec_starts ..] at hs
  exact foldlM_inv (fun s => ∃ a', s = a'.st L ∧ PInv L a0 (L.f0.starts .func) a') ⟨a, rfl, h⟩
    (fun p s s' hp ⟨a1, e, hi⟩ hst => by subst e; exact funcAutoStep_inv hL hi hp (fun _ h => h) hst) hs

/-! ### New functions -/

theorem PInv.newNames {L : GSt} {a0 a a' : AnSt} {done : List Nat} (h : PInv L a0 done a) (hi : Inv L a') (hn : NewNames a a') :
    PInv L a0 done a' :=
  ⟨hi, hn.I.trans h.I, hn.U.trans h.U, by rw [hn.P0]; exact h.grows, by rw [hn.P0]; exact h.others,
    by rw [hn.P0]; exact fun b0 hb ht b1 hb1 e => hn.keeps _ _ (h.new1 b0 hb ht b1 hb1 e), by rw [hn.P0, hn.P1]; exact h.exact⟩

theorem newLabels_inv {L : GSt} {nm : Kpstr} : ∀ (ls : List Ln) (a : AnSt) (f : GFile), Inv L a →
    newLabelsLoop (a.st L).f1 nm ls = some f → ∃ a', f = (a'.st L).f1 ∧ Inv L a' ∧ NewNames a a' := by
  intro ls
  induction ls with
  | nil => intro a f h hs; cases hs; exact ⟨a, rfl, h, .refl a⟩
  | cons l r ih =>
    intro a f h hs
    rw [newLabelsLoop] at hs
    dsimp only at hs
    split at hs
    · cases hs
    · split at hs
      · exact ih a f h hs
      · rw [Option.bind_eq_some_iff] at hs
        obtain ⟨f1, e1, hs⟩ := hs
        obtain ⟨a1, rfl, q2, q3, _⟩ := addSuffix_inv h (getToken_ok _) e1
        obtain ⟨a2, w1, w2, w3⟩ := ih a1 f q2 hs
        exact ⟨a2, w1, w2, q3.trans w3⟩

theorem makeNewLabels_inv {L : GSt} {b : GBlock} {a : AnSt} {f : GFile} (h : Inv L a) (hs : makeNewLabels (a.st L).f1 b = some f) :
    ∃ a', f = (a'.st L).f1 ∧ Inv L a' ∧ NewNames a a' := newLabels_inv _ a f h hs

theorem newFuncStep_inv {L : GSt} {a : AnSt} (hL : LOk L) (h : Inv L a) {p : Nat} {f : GFile} (hs : newFuncStep (a.st L).f1 p = some f) :
    ∃ a', f = (a'.st L).f1 ∧ Inv L a' ∧ NewNames a a' := by
  unfold newFuncStep at hs
  split at hs
  · cases hs; exact ⟨a, rfl, h, .refl a⟩
  rename_i b1 hb1
  obtain ⟨c, hc, _, rfl, _⟩ := dec_at_some hb1
  split at hs
  · cases hs; exact ⟨a, rfl, h, .refl a⟩
  split at hs
  · cases hs; exact ⟨a, rfl, h, .refl a⟩
  rw [Option.bind_eq_some_iff] at hs
  obtain ⟨f1, e1, hs⟩ := hs
  have h1 : ∃ a', f1 = (a'.st L).f1 ∧ Inv L a' ∧ NewNames a a' := by
    split at e1
    · obtain ⟨a', q1, q2, q3, _⟩ := addSuffix_inv h (hL.ok1 c hc).1 e1
      exact ⟨a', q1, q2, q3⟩
    · cases e1; exact ⟨a, rfl, h, .refl a⟩
  obtain ⟨a1, rfl, q2, q3⟩ := h1
  obtain ⟨a2, w1, w2, w3⟩ := makeNewLabels_inv q2 hs
  exact ⟨a2, w1, w2, q3.trans w3⟩

/-! ### Ignored functions -/

/-- After the pairs are made. -/
structure FInv (o : GenOpts) (L : GSt) (a0 a : AnSt) : Prop where
  inv : Inv L a
  P0 : a.P0 = a0.P0
  P1 : a.P1 = a0.P1
  new1 : ∀ b0 ∈ L.f0.bs, b0.ty = .func → ∀ b1 ∈ L.f1.bs, a.P0 b0.start = some b1.start → b1.name.text ≠ [] → a.I b1.start = false →
    mapOf a.r1 b1.name.text = some (b1.name.text ++ kp0)
  ign : ∀ b1 ∈ L.f1.bs, a.I b1.start = true → b1.ty = .func ∧ ∃ b0 ∈ L.f0.bs, a.P1 b1.start = some b0.start ∧
    (ignoredSym o L.f1.basename b1.human .func = true ∨ SameBlocks o L a.P0 b0 b1)
  unl : ∀ b1 ∈ L.f1.bs, a.U b1.start = true → b1.ty = .func ∧ (a.P1 b1.start).isSome ∧
    inSyms L.f1.basename b1.human o.unlinkSyms = true

theorem pair_at {L : GSt} {a : AnSt} {p : Nat} {b1 : GBlock} (hb1 : (a.st L).f1.at p = some b1) {b0 : GBlock}
    (hb0 : b1.pair.bind (a.st L).f0.at = some b0) : ∃ c1 ∈ L.f1.bs, c1.start = p ∧ b1 = c1.dec a.P1 a.I a.U ∧
      ∃ c0 ∈ L.f0.bs, a.P1 c1.start = some c0.start ∧ b0 = c0.dec a.P0 noFlag noFlag := by
  obtain ⟨c1, hc1, hst, rfl, _⟩ := dec_at_some hb1
  rw [Option.bind_eq_some_iff] at hb0
  obtain ⟨q, e, hb0⟩ := hb0
  obtain ⟨c0, hc0, rfl, rfl, _⟩ := dec_at_some hb0
  exact ⟨c1, hc1, hst, rfl, c0, hc0, e, rfl⟩

/-- A block of the new file is marked as ignored and its rename may change. -/
theorem FInv.ignore {o : GenOpts} {L : GSt} {a0 a a' : AnSt} (hL : LOk L) (h : FInv o L a0 a) {c1 c0 : GBlock} (h1 : c1 ∈ L.f1.bs) (h0 : c0 ∈ L.f0.bs)
    (hty : c1.ty = .func) (hp : a.P1 c1.start = some c0.start) (hi : Inv L a') (hP0 : a'.P0 = a.P0) (hP1 : a'.P1 = a.P1)
    (hI : a'.I = setAt a.I c1.start true) (hU : a'.U = a.U) (hr : ∀ x, x ≠ c1.name.text → ∀ y, mapOf a.r1 x = some y → mapOf a'.r1 x = some y)
    (hw : ignoredSym o L.f1.basename c1.human .func = true ∨ SameBlocks o L a.P0 c0 c1) : FInv o L a0 a' := by
  refine ⟨hi, hP0.trans h.P0, hP1.trans h.P1, fun b0 hb ht b1 hb1 e hne hig => ?_, fun b1 hb1 hig => ?_, fun b1 hb1 hu => ?_⟩
  · rw [hP0] at e
    rw [hI] at hig
    by_cases hs : b1.start = c1.start
    · rw [hs, setAt_same] at hig; cases hig
    · rw [setAt_ne _ _ hs] at hig
      refine hr _ (fun e => hs ?_) _ (h.new1 b0 hb ht b1 hb1 e hne hig)
      rw [hL.uniq1 b1 hb1 c1 h1 e hne]
  · rw [hP0, hP1]
    rw [hI] at hig
    by_cases hs : b1.start = c1.start
    · have := start_inj hL.st1 hb1 h1 hs
      subst this
      exact ⟨hty, c0, h0, hp, hw⟩
    · rw [setAt_ne _ _ hs] at hig
      exact h.ign b1 hb1 hig
  · rw [hU] at hu
    rw [hP1]
    exact h.unl b1 hb1 hu

theorem FInv.newNames {o : GenOpts} {L : GSt} {a0 a a' : AnSt} (h : FInv o L a0 a) (hi : Inv L a') (hn : NewNames a a') : FInv o L a0 a' :=
  ⟨hi, hn.P0.trans h.P0, hn.P1.trans h.P1, by
    rw [hn.P0, hn.I]; exact fun b0 hb ht b1 hb1 e hne hig => hn.keeps _ _ (h.new1 b0 hb ht b1 hb1 e hne hig),
    by rw [hn.P0, hn.P1, hn.I]; exact h.ign, by rw [hn.P1, hn.U]; exact h.unl⟩

theorem at_dec1 {L : GSt} {a : AnSt} (hL : LOk L) {c : GBlock} (hc : c ∈ L.f1.bs) : (a.st L).f1.at c.start = some (c.dec a.P1 a.I a.U) := by
  show (L.f1.dec a.P1 a.I a.U a.r1).at c.start = _
  rw [dec_at, at_of_mem hL.st1 hc]; rfl

theorem at_dec0 {L : GSt} {a : AnSt} (hL : LOk L) {c : GBlock} (hc : c ∈ L.f0.bs) : (a.st L).f0.at c.start = some (c.dec a.P0 noFlag noFlag) := by
  show (L.f0.dec a.P0 noFlag noFlag a.r0).at c.start = _
  rw [dec_at, at_of_mem hL.st0 hc]; rfl

theorem delKeeps {t t' : Renames} {x : Kpstr} (h : RenOk t) (hx : x.Ok) (hr : renameDel t x = some t') :
    ∀ u, u ≠ x.text → ∀ v, mapOf t u = some v → mapOf t' u = some v := by
  intro u hu v e
  rw [(renameDel_map h hx hr).2, if_neg hu]
  exact e

theorem funcListStep_inv {o : GenOpts} {L : GSt} {a0 a : AnSt} (hL : LOk L) (h : FInv o L a0 a) {p : Nat} {s : GSt}
    (hp : p ∈ L.f1.starts .func) (hs : funcListStep o (a.st L) p = some s) : ∃ a', s = a'.st L ∧ FInv o L a0 a' := by
  obtain ⟨c1, hc1, hty, rfl⟩ := (starts_mem hL.st1).mp hp
  unfold funcListStep at hs
  rw [at_dec1 hL hc1] at hs
  dsimp only at hs
  cases hb : (c1.dec a.P1 a.I a.U).pair.bind (a.st L).f0.at with
  | none => rw [hb] at hs; cases hs; exact ⟨a, rfl, h⟩
  | some b0 =>
    rw [hb] at hs
    obtain ⟨c1', hc1', e1, _, c0, hc0, hpr, rfl⟩ := pair_at (at_dec1 hL hc1) hb
    have := start_inj hL.st1 hc1' hc1 e1
    subst this
    dsimp only at hs
    rw [Option.map_eq_some_iff] at hs
    obtain ⟨s1, e1, hs⟩ := hs
    have hfirst : ∃ a1, s1 = a1.st L ∧ FInv o L a0 a1 := by
      split at e1
      · rename_i hign
        rw [AnSt.del1, Option.bind_eq_some_iff] at e1
        obtain ⟨s2, e2, e1⟩ := e1
        rw [Option.map_eq_some_iff] at e2
        obtain ⟨t1, e2, rfl⟩ := e2
        rw [AnSt.del0, Option.map_eq_some_iff] at e1
        obtain ⟨s3, e3, rfl⟩ := e1
        rw [Option.map_eq_some_iff] at e3
        obtain ⟨t0, e3, rfl⟩ := e3
        have hi1 := h.inv.del1 (hL.ok1 c1' hc1').1 e2
        have hi2 := hi1.del0 (hL.ok0 c0 hc0).1 e3
        refine ⟨{ a with r0 := t0, r1 := t1, I := setAt a.I c1'.start true }, ?_,
          h.ignore hL hc1' hc0 hty hpr ⟨hi2.ok0, hi2.ok1, hi2.just0, hi2.just1, hi2.sym, hi2.mat, hi2.rev⟩ rfl rfl rfl rfl
          (delKeeps h.inv.ok1 (hL.ok1 c1' hc1').1 e2) ?_⟩
        · unfold AnSt.st
          dsimp only
          rw [dec_ignore]
        · left
          have : ignoredSym o L.f1.basename c1'.human c1'.ty = true := hign
          rwa [hty] at this
      · cases e1; exact ⟨a, rfl, h⟩
    obtain ⟨a1, rfl, hf⟩ := hfirst
    split at hs
    · rename_i hin
      subst hs
      refine ⟨{ a1 with U := setAt a1.U c1'.start true }, ?_,
        ⟨⟨hf.inv.ok0, hf.inv.ok1, hf.inv.just0, hf.inv.just1, hf.inv.sym, hf.inv.mat, hf.inv.rev⟩, hf.P0, hf.P1, hf.new1, hf.ign, fun b1 hb1 hu => ?_⟩⟩
      · unfold AnSt.st
        dsimp only
        rw [dec_unlink]
      · dsimp only at hu ⊢
        by_cases hst : b1.start = c1'.start
        · have := start_inj hL.st1 hb1 hc1' hst
          subst this
          refine ⟨hty, ?_, hin⟩
          rw [hf.P1, ← h.P1, hpr]
          rfl
        · rw [setAt_ne _ _ hst] at hu
          exact hf.unl b1 hb1 hu
    · subst hs; exact ⟨a1, rfl, hf⟩

theorem funcSameStep_inv {o : GenOpts} {L : GSt} {a0 a : AnSt} (hL : LOk L) (h : FInv o L a0 a) {p : Nat} {bad bad' : Bool} {s : GSt}
    (hp : p ∈ L.f1.starts .func) (hs : funcSameStep o (a.st L, bad) p = some (s, bad')) : ∃ a', s = a'.st L ∧ FInv o L a0 a' := by
  obtain ⟨c1, hc1, hty, rfl⟩ := (starts_mem hL.st1).mp hp
  unfold funcSameStep at hs
  dsimp only at hs
  rw [at_dec1 hL hc1] at hs
  dsimp only at hs
  cases hb : (c1.dec a.P1 a.I a.U).pair.bind (a.st L).f0.at with
  | none => rw [hb] at hs; cases hs; exact ⟨a, rfl, h⟩
  | some b0 =>
    rw [hb] at hs
    obtain ⟨c1', hc1', e1, _, c0, hc0, hpr, rfl⟩ := pair_at (at_dec1 hL hc1) hb
    have := start_inj hL.st1 hc1' hc1 e1
    subst this
    dsimp only at hs
    split at hs
    · cases hs; exact ⟨a, rfl, h⟩
    split at hs
    · rename_i hsame
      have hsb := h.inv.same hL hc0 hc1' rfl rfl hsame
      obtain ⟨c0', hc0', e0, hP⟩ := h.inv.sym c1' hc1' _ hpr
      have := start_inj hL.st0 hc0' hc0 e0
      subst this
      rw [AnSt.del0, Option.bind_eq_some_iff] at hs
      obtain ⟨s1, e1, hs⟩ := hs
      rw [Option.map_eq_some_iff] at e1
      obtain ⟨t0, e1, rfl⟩ := e1
      rw [AnSt.del1, Option.bind_eq_some_iff] at hs
      obtain ⟨s2, e2, hs⟩ := hs
      rw [Option.map_eq_some_iff] at e2
      obtain ⟨t1, e2, rfl⟩ := e2
      rw [AnSt.add0, Option.bind_eq_some_iff] at hs
      obtain ⟨s3, e3, hs⟩ := hs
      rw [Option.map_eq_some_iff] at e3
      obtain ⟨t2, e3, rfl⟩ := e3
      rw [AnSt.add1, Option.map_eq_some_iff] at hs
      obtain ⟨s4, e4, hs⟩ := hs
      rw [Option.map_eq_some_iff] at e4
      obtain ⟨t3, e4, rfl⟩ := e4
      have hs : _ = s ∧ _ = bad' := Prod.mk.inj hs
      obtain ⟨rfl, _⟩ := hs
      have k0 := (hL.ok0 c0' hc0').1
      have k1 := (hL.ok1 c1' hc1').1
      have hi1 := h.inv.del0 k0 e1
      have hi2 := hi1.del1 k1 e2
      have hi3 := hi2.add0 k0 k1 (Or.inl ⟨c0', hc0', c1', hc1', hP, Or.inl ⟨rfl, rfl⟩⟩) e3
      have hi4 := hi3.add1 k1 k0 (Or.inr ⟨c0', hc0', c1', hc1', hP, rfl, rfl⟩) e4
      refine ⟨{ a with r0 := t2, r1 := t3, I := setAt a.I c1'.start true }, ?_,
          h.ignore hL hc1' hc0' hty hpr ⟨hi4.ok0, hi4.ok1, hi4.just0, hi4.just1, hi4.sym, hi4.mat, hi4.rev⟩ rfl rfl rfl rfl
          (fun x hx y e => ?_) (Or.inr hsb)⟩
      · unfold AnSt.st
        dsimp only
        rw [dec_ignore]
      · exact (renameAdd_map hi3.ok1 k1 k0 e4).2.2.1 _ _ (delKeeps h.inv.ok1 k1 e2 x hx y e)
    · rw [Option.map_eq_some_iff] at hs
      obtain ⟨f, e1, hs⟩ := hs
      have hs : _ = s ∧ _ = bad' := Prod.mk.inj hs
      obtain ⟨rfl, _⟩ := hs
      obtain ⟨a1, rfl, q2, q3⟩ := makeNewLabels_inv h.inv e1
      refine ⟨a1, ?_, h.newNames q2 q3⟩
      unfold AnSt.st
      rw [q3.P0, q3.r0]

/-- What is known after the analysis of variables and functions. -/
structure Analysed (o : GenOpts) (L : GSt) (a : AnSt) : Prop where
  inv : Inv L a
  vars : VarsSame o L a.P0
  kept : VarsKept L a.P0
  new1 : ∀ b0 ∈ L.f0.bs, b0.ty = .func → ∀ b1 ∈ L.f1.bs, a.P0 b0.start = some b1.start → b1.name.text ≠ [] → a.I b1.start = false →
    mapOf a.r1 b1.name.text = some (b1.name.text ++ kp0)
  ign : ∀ b1 ∈ L.f1.bs, a.I b1.start = true → b1.ty = .func ∧ ∃ b0 ∈ L.f0.bs, a.P1 b1.start = some b0.start ∧
    (ignoredSym o L.f1.basename b1.human .func = true ∨ SameBlocks o L a.P0 b0 b1)
  unl : ∀ b1 ∈ L.f1.bs, a.U b1.start = true → b1.ty = .func ∧ (a.P1 b1.start).isSome ∧
    inSyms L.f1.basename b1.human o.unlinkSyms = true
  exact : ∀ b0 ∈ L.f0.bs, b0.ty = .func → b0.auto = false → b0.name.text ≠ [] → ∀ b1, L.f1.find b0.name = some b1 →
    a.P0 b0.start = some b1.start ∧ a.P1 b1.start = some b0.start
  kinds : ∀ b0 ∈ L.f0.bs, b0.ty ≠ .var → b0.ty ≠ .func → a.P0 b0.start = none

theorem analyzeFuncs_inv {o : GenOpts} {L : GSt} {a : AnSt} (hL : LOk L) (h : Inv L a) (hI : a.I = noFlag) (hU : a.U = noFlag)
    (hfresh : ∀ b0 ∈ L.f0.bs, b0.ty ≠ .var → a.P0 b0.start = none) (hv : VarsSame o L a.P0) (hk : VarsKept L a.P0) {s : GSt}
    (hs : analyzeFuncs o (a.st L) = some s) : ∃ a', s = a'.st L ∧ Analysed o L a' := by
  have hff : ∀ b0 ∈ L.f0.bs, b0.ty = .func → a.P0 b0.start = none := fun b0 hb ht => hfresh b0 hb (by rw [ht]; decide)
  unfold analyzeFuncs at hs
  rw [Option.bind_eq_some_iff] at hs
  obtain ⟨s1, e1, hs⟩ := hs
  obtain ⟨a1, rfl, h1⟩ := exactFold_inv hL (a := a) ⟨h, hI, hU, fun _ _ h => h, fun _ _ _ => rfl,
    fun b0 hb ht b1 _ e => (by rw [hff b0 hb ht] at e; cases e), fun _ _ _ hm => by cases hm⟩ hff e1
  rw [Option.bind_eq_some_iff] at hs
  obtain ⟨s2, e2, hs⟩ := hs
  obtain ⟨a2, rfl, h2⟩ := autoFold_inv hL h1 e2
  rw [Option.bind_eq_some_iff] at hs
  obtain ⟨s3, e3, hs⟩ := hs
  obtain ⟨a3, rfl, h3⟩ := autoFold_inv hL h2 e3
  rw [Option.bind_eq_some_iff] at hs
  obtain ⟨f4, e4, hs⟩ := hs
  have hf4 := foldlM_inv (fun f : GFile => ∃ a', f = (a'.st L).f1 ∧ Inv L a' ∧ NewNames a3 a') ⟨a3, rfl, h3.inv, .refl a3⟩
    (fun p f f' hp hf hst => by
      obtain ⟨b, rfl, q2, q3⟩ := hf
      obtain ⟨c, w1, w2, w3⟩ := newFuncStep_inv hL q2 hst
      exact ⟨c, w1, w2, q3.trans w3⟩) e4
  obtain ⟨a4, rfl, hi4, hn4⟩ := hf4
  have h4 := h3.newNames hi4 hn4
  have e34 : ({ a3.st L with f1 := (a4.st L).f1 } : GSt) = a4.st L := by
    unfold AnSt.st; dsimp only; rw [hn4.P0, hn4.r0]
  rw [e34, Option.bind_eq_some_iff] at hs
  obtain ⟨s5, e5, hs⟩ := hs
  have hstarts : ∀ b : AnSt, (b.st L).f1.starts .func = L.f1.starts .func := fun b => dec_starts ..
  rw [hstarts] at e5
  have hF4 : FInv o L a4 a4 := ⟨h4.inv, rfl, rfl, fun b0 hb ht b1 hb1 e _ _ => h4.new1 b0 hb ht b1 hb1 e,
    fun b1 _ hig => (by rw [h4.I] at hig; cases hig), fun b1 _ hu => by rw [h4.U] at hu; cases hu⟩
  have h5 := foldlM_inv (fun s => ∃ a', s = a'.st L ∧ FInv o L a4 a') ⟨a4, rfl, hF4⟩
    (fun p s s' hp ⟨b, e, hi⟩ hst => by subst e; exact funcListStep_inv hL hi hp hst) e5
  obtain ⟨a5, rfl, h5⟩ := h5
  rw [Option.bind_eq_some_iff] at hs
  obtain ⟨⟨s6, bad⟩, e6, hs⟩ := hs
  rw [hstarts] at e6
  have h6 := foldlM_inv (fun x : GSt × Bool => ∃ a', x.1 = a'.st L ∧ FInv o L a4 a') ⟨a5, rfl, h5⟩
    (fun p s s' hp ⟨b, e, hi⟩ hst => by
      obtain ⟨s, bd⟩ := s
      obtain ⟨s', bd'⟩ := s'
      dsimp only at e
      subst e
      exact funcSameStep_inv hL hi hp hst) e6
  obtain ⟨a6, e, h6⟩ := h6
  dsimp only at e hs
  subst e
  split at hs
  · cases hs
  cases hs
  have hother : ∀ b0 ∈ L.f0.bs, b0.ty ≠ .func → a6.P0 b0.start = a.P0 b0.start := by
    rw [h6.P0]; exact h4.others
  have hgr : Grows a.P0 a6.P0 := by rw [h6.P0]; exact h4.grows
  refine ⟨a6, rfl, h6.inv, ?_, ?_, h6.new1, h6.ign, h6.unl, ?_, ?_⟩
  · intro b0 hb ht b1 hb1 e
    rw [hother b0 hb (by rw [ht]; decide)] at e
    exact (hv b0 hb ht b1 hb1 e).imp id (SameBlocks.mono hgr)
  · intro b0 hb ht e
    rw [hother b0 hb (by rw [ht]; decide)] at e
    exact hk b0 hb ht e
  · rw [h6.P0, h6.P1]
    exact fun b0 hb ht ha hne b1 hf => h4.exact b0 hb ht ((starts_mem hL.st0).mpr ⟨b0, hb, ht, rfl⟩) ha hne b1 hf
  · intro b0 hb hv hf
    rw [hother b0 hb hf]
    exact hfresh b0 hb hv

end Verif
