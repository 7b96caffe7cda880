import Verif.Proof.GenSame
/-
Twice the same file: each block is paired with itself, and each function is found to be the same.
-/
namespace Verif

variable [AsmTarget]

/-! ### Loading -/

theorem findSection_prefix {known K : List SectInfo} (h : known <+: K) {nm : List Byte} {s : SectInfo} (hs : findSection known nm = some s) :
    findSection K nm = some s := by
  obtain ⟨t, rfl⟩ := h
  unfold findSection at *
  rw [List.find?_append, hs]
  rfl

theorem sectionLoop_again : ∀ (ls : List (List Byte)) (known cur r K : List SectInfo), sectionLoop known cur ls = some (r, K) →
    known <+: K ∧ ∀ K', K <+: K' → sectionLoop K' cur ls = some (r, K') := by
  intro ls
  induction ls with
  | nil =>
    intro known cur r K h
    cases h
    exact ⟨List.prefix_refl _, fun K' _ => rfl⟩
  | cons l ls ih =>
    intro known cur r K h
    rw [sectionLoop] at h
    have dup : ∀ (f : List SectInfo → Option SectInfo), (∀ K', known <+: K' → ∀ s, f known = some s → f K' = some s) →
        (∀ K', parseSection K' cur (parseCtype l) l = dupSection K' (f K')) →
        known <+: K ∧ ∀ K', K <+: K' → sectionLoop K' cur (l :: ls) = some (r, K') := by
      intro f hf hp
      rw [hp known] at h
      cases e : f known with
      | none => rw [e] at h; cases h
      | some s =>
        rw [e] at h
        dsimp only [dupSection] at h
        rw [Option.map_eq_some_iff] at h
        obtain ⟨⟨r1, K1⟩, e1, h⟩ := h
        cases h
        obtain ⟨p, q⟩ := ih _ _ _ _ e1
        refine ⟨p, fun K' hK => ?_⟩
        rw [sectionLoop, hp K', hf K' (p.trans hK) s e]
        dsimp only [dupSection]
        rw [q K' hK]
        rfl
    have keep : (∀ K', parseSection K' cur (parseCtype l) l = .keep) →
        known <+: K ∧ ∀ K', K <+: K' → sectionLoop K' cur (l :: ls) = some (r, K') := by
      intro hp
      rw [hp known] at h
      dsimp only at h
      rw [Option.bind_eq_some_iff] at h
      obtain ⟨⟨r1, K1⟩, e1, h⟩ := h
      rw [Option.map_eq_some_iff] at h
      obtain ⟨c, e2, h⟩ := h
      cases h
      obtain ⟨p, q⟩ := ih _ _ _ _ e1
      refine ⟨p, fun K' hK => ?_⟩
      rw [sectionLoop, hp K']
      dsimp only
      rw [q K' hK, e2]
      rfl
    have sect : (∀ K', parseSection K' cur (parseCtype l) l = .change (parseSectionLine K' l).1 (parseSectionLine K' l).2) →
        known <+: K ∧ ∀ K', K <+: K' → sectionLoop K' cur (l :: ls) = some (r, K') := by
      intro hp
      rw [hp known] at h
      dsimp only at h
      rw [Option.map_eq_some_iff] at h
      obtain ⟨⟨r1, K1⟩, e1, h⟩ := h
      cases h
      obtain ⟨p, q⟩ := ih _ _ _ _ e1
      have key : known <+: K1 ∧ ∀ K', K1 <+: K' → parseSectionLine K' l = ((parseSectionLine known l).1, K') := by
        unfold parseSectionLine at p ⊢
        dsimp only at p ⊢
        cases e : findSection known (unquoteName (getTokenD sectDelims (getToken (some l)).2).1) with
        | some s =>
          rw [e] at p
          refine ⟨p, fun K' hK => ?_⟩
          rw [findSection_prefix (p.trans hK) e]
        | none =>
          rw [e] at p
          dsimp only at p ⊢
          refine ⟨(List.prefix_append _ _).trans p, fun K' hK => ?_⟩
          rw [findSection_prefix (p.trans hK)]
          unfold findSection at e ⊢
          rw [List.find?_append, e]
          simp
      refine ⟨key.1, fun K' hK => ?_⟩
      rw [sectionLoop, hp K', key.2 K' hK]
      dsimp only
      rw [q K' hK]
      rfl
    cases hd : parseCtype l
    case text => exact dup (fun K => findSection K (lit ".text")) (fun K' hK s e => findSection_prefix hK e) (fun K' => by rw [hd]; rfl)
    case data => exact dup (fun K => findSection K (lit ".data")) (fun K' hK s e => findSection_prefix hK e) (fun K' => by rw [hd]; rfl)
    case bss => exact dup (fun K => findSection K (lit ".bss")) (fun K' hK s e => findSection_prefix hK e) (fun K' => by rw [hd]; rfl)
    case pushsection => exact sect fun K' => by rw [hd]; rfl
    case sect => exact sect fun K' => by rw [hd]; rfl
    case popsection => exact dup (fun _ => (cur.drop 1).head?) (fun K' hK s e => e) (fun K' => by rw [hd]; rfl)
    case previous => exact dup (fun _ => (cur.drop 1).head?) (fun K' hK s e => e) (fun K' => by rw [hd]; rfl)
    case subsection => exact dup (fun _ => cur.head?) (fun K' hK s e => e) (fun K' => by rw [hd]; rfl)
    all_goals exact keep fun K' => by rw [hd]; rfl

theorem makeLines_again {known K : List SectInfo} {st : List (List Byte)} {ls : List Ln} (h : makeLines known st = some (ls, K)) :
    makeLines K st = some (ls, K) := by
  unfold makeLines at h ⊢
  rw [Option.map_eq_some_iff] at h
  obtain ⟨⟨r, K1⟩, e, h⟩ := h
  cases h
  have : initSections K1 st = some (r, K1) := by
    cases st with
    | nil => cases e; rfl
    | cons l st =>
      unfold initSections at e ⊢
      dsimp only at e ⊢
      rw [Option.bind_eq_some_iff] at e
      obtain ⟨t, e1, e⟩ := e
      rw [Option.map_eq_some_iff] at e
      obtain ⟨⟨r1, K1⟩, e2, e⟩ := e
      cases e
      obtain ⟨p, q⟩ := sectionLoop_again _ _ _ _ _ e2
      rw [findSection_prefix p e1, Option.bind_some, q _ (List.prefix_refl _)]
      rfl
  rw [this]
  rfl

/-- The two files are the same, but for their names. -/
structure Twin (L : GSt) : Prop where
  ls : L.f1.ls = L.f0.ls
  bs : L.f1.bs = L.f0.bs

theorem loadBoth_twin {i0 i1 : GenInput} {L : GSt} (hs : i1.lines = i0.lines) (h : loadBoth i0 i1 = some L) : Twin L := by
  unfold loadBoth at h
  rw [Option.bind_eq_some_iff] at h
  obtain ⟨⟨f0, K⟩, e0, h⟩ := h
  rw [Option.map_eq_some_iff] at h
  obtain ⟨⟨f1, K'⟩, e1, h⟩ := h
  subst h
  unfold loadGFile at e0 e1
  rw [hs] at e1
  rw [Option.bind_eq_some_iff] at e0
  obtain ⟨st, a1, e0⟩ := e0
  rw [Option.bind_eq_some_iff] at e0
  obtain ⟨⟨ls, K1⟩, a2, e0⟩ := e0
  rw [Option.map_eq_some_iff] at e0
  obtain ⟨cb, a3, e0⟩ := e0
  cases e0
  rw [a1, Option.bind_some, makeLines_again a2, Option.bind_some] at e1
  dsimp only at e1
  rw [a3] at e1
  cases e1
  exact ⟨rfl, rfl⟩

/-! ### The state -/

/-- Each block is paired with itself if at all, and both files have the same renames. -/
structure Mir (L : GSt) (a : AnSt) : Prop where
  ok0 : RenOk a.r0
  ok1 : RenOk a.r1
  bal : ∀ t, Bal (a.st L) t
  P : ∀ p q, a.P0 p = some q → q = p
  P1 : a.P1 = a.P0

/-- No renames. -/
def AllClear (L : GSt) (a : AnSt) : Prop := ∀ t, Clear (a.st L) t

theorem Twin.mem {L : GSt} (h : Twin L) {b : GBlock} (hb : b ∈ L.f0.bs) : b ∈ L.f1.bs := by rw [h.bs]; exact hb

theorem Twin.mem' {L : GSt} (h : Twin L) {b : GBlock} (hb : b ∈ L.f1.bs) : b ∈ L.f0.bs := by rw [← h.bs]; exact hb

theorem Twin.lines {L : GSt} (h : Twin L) (b : GBlock) : L.f1.lines b = L.f0.lines b := by unfold GFile.lines; rw [h.ls]

theorem Twin.labels {L : GSt} (h : Twin L) (b : GBlock) : L.f1.labels b = L.f0.labels b := by unfold GFile.labels; rw [h.lines]

theorem Twin.starts {L : GSt} (h : Twin L) (ty : BType) : L.f1.starts ty = L.f0.starts ty := by unfold GFile.starts; rw [h.bs]

theorem Twin.same {L : GSt} (h : Twin L) (b : GBlock) : List.Forall₂ SameLine (L.f0.lines b) (L.f1.lines b) := by
  rw [h.lines]
  exact forall₂_diag fun x _ => ⟨rfl, rfl, rfl⟩

theorem matchLabels_self (add : Bool) : ∀ (l : List Ln) (r : Renames), matchLabels add r l l = some r := by
  intro l
  induction l with
  | nil => intro r; rw [matchLabels]; intro a l b l' e; cases e
  | cons a l ih => intro r; rw [matchLabels, if_pos rfl]; exact ih r

theorem Mir.same {o : GenOpts} {L : GSt} (hT : Twin L) {a : AnSt} (h : Mir L a) (b : GBlock) {P P' : Corresp} {I U I' U' : Nat → Bool} :
    cblockSame o.os (a.st L).f0 (a.st L).f1 (b.dec P I U) (b.dec P' I' U') true true = true :=
  cblockSame_of h.ok0 h.ok1 (hT.same b) fun _ _ x _ => h.bal x.text

/-- Renaming a name to itself changes nothing. -/
theorem renameAdd_self {r r' : Renames} {x : Kpstr} (h : RenOk r) (hx : x.Ok) (ha : renameAdd r x x = some r') :
    RenOk r' ∧ mapOf r' = mapOf r := by
  refine ⟨(renameAdd_map h hx hx ha).1, funext fun t => ?_⟩
  rw [renameAdd_eq h hx hx ha, if_neg (fun e => e.2 rfl)]

theorem Mir.of_eq {L : GSt} {a a' : AnSt} (h : Mir L a) (k0 : RenOk a'.r0) (k1 : RenOk a'.r1) (e0 : mapOf a'.r0 = mapOf a.r0)
    (e1 : mapOf a'.r1 = mapOf a.r1) (p0 : a'.P0 = a.P0) (p1 : a'.P1 = a.P1) : Mir L a' :=
  ⟨k0, k1, fun t => (h.bal t).eq (congrFun e0 t) (congrFun e1 t), by rw [p0]; exact h.P, by rw [p1, p0]; exact h.P1⟩

theorem Mir.setPair {L : GSt} {a : AnSt} (h : Mir L a) (p : Nat) :
    Mir L { a with P0 := setAt a.P0 p (some p), P1 := setAt a.P1 p (some p) } := by
  refine ⟨h.ok0, h.ok1, h.bal, fun x y e => ?_, by show setAt a.P1 p (some p) = setAt a.P0 p (some p); rw [h.P1]⟩
  dsimp only [setAt] at e
  split at e
  · rename_i hx; rw [hx]; exact (Option.some.inj e).symm
  · exact h.P x y e

/-! ### Variables -/

theorem nextFrom_eq (f : GFile) (s : Nat) (ty : BType) : f.nextFrom s ty = (f.starts ty).find? fun p => decide (s ≤ p) := by
  unfold GFile.nextFrom GFile.starts
  rw [List.find?_map]
  congr 1
  induction f.bs with
  | nil => rfl
  | cons b bs ih =>
    rw [List.find?_cons, List.filter_cons]
    by_cases ht : b.ty = ty
    · rw [if_pos (by simpa using ht), List.find?_cons]
      by_cases hs : s ≤ b.start
      · simp [ht, hs]
      · simp only [hs, decide_false, Bool.false_and, Function.comp]
        exact ih
    · rw [if_neg (by simpa using ht)]
      simp only [ht, decide_false, Bool.and_false]
      exact ih

theorem starts_sorted {f : GFile} (h : InOrder f) (ty : BType) : (f.starts ty).Pairwise (· < ·) := by
  rw [starts_eq, List.pairwise_map]
  exact (h.lt).sublist List.filter_sublist

theorem nextFrom_suffix {f : GFile} (h : InOrder f) {ty : BType} {pre suf : List Nat} {p : Nat} (e : f.starts ty = pre ++ p :: suf) :
    f.nextFrom (p + 1) ty = suf.head? := by
  have hs := starts_sorted h ty
  rw [e, List.pairwise_append, List.pairwise_cons] at hs
  obtain ⟨_, ⟨h2, _⟩, h3⟩ := hs
  rw [nextFrom_eq, e, List.find?_append, List.find?_eq_none.mpr, Option.none_or, List.find?_cons]
  · rw [show decide (p + 1 ≤ p) = false by simp]
    dsimp only
    cases suf with
    | nil => rfl
    | cons q suf =>
      rw [List.find?_cons, show decide (p + 1 ≤ q) = true by have := h2 q (by simp); exact decide_eq_true this]
      rfl
  · intro x hx
    have := h3 x hx p (by simp)
    simp only [decide_eq_true_eq]
    omega

theorem nextFrom_zero (f : GFile) (ty : BType) : f.nextFrom 0 ty = (f.starts ty).head? := by
  rw [nextFrom_eq]
  cases f.starts ty with
  | nil => rfl
  | cons a l => simp

theorem dec_nextFrom (f : GFile) (P : Corresp) (I U : Nat → Bool) (r : Renames) (s : Nat) (ty : BType) :
    (f.dec P I U r).nextFrom s ty = f.nextFrom s ty := by
  rw [nextFrom_eq, nextFrom_eq, dec_starts]

theorem varTry_self {o : GenOpts} {L : GSt} (hT : Twin L) (hL : LOk L) (hn : L.f0.Named) {a : AnSt} (h : Mir L a) (hc : AllClear L a) {b : GBlock}
    (hb : b ∈ L.f0.bs) (hty : b.ty = .var) (hp : a.P0 b.start = none) {s : GSt} {res : Option GBlock}
    (hs : varTry o (a.st L) (b.dec a.P0 noFlag noFlag) (some (b.dec a.P1 a.I a.U)) = some (s, res)) :
    ∃ a', s = a'.st L ∧ Mir L a' ∧ AllClear L a' ∧ a'.P0 = a.P0 ∧ a'.I = a.I ∧ a'.U = a.U ∧ res = some (b.dec a'.P1 a'.I a'.U) := by
  have k0 := (hL.ok0 b hb).1
  unfold varTry at hs
  split at hs
  · cases hs
    refine ⟨a, rfl, h, hc, rfl, rfl, rfl, ?_⟩
    rw [show (a.st L).f1.find (b.dec a.P0 noFlag noFlag).name = (L.f1.find b.name).map (GBlock.dec a.P1 a.I a.U) from dec_find ..,
      find_of_name' hL (hT.mem hb) k0 rfl (hn b hb (Or.inr hty))]
    rfl
  · rw [Option.bind_eq_some_iff] at hs
    obtain ⟨⟨s1, same⟩, e1, hs⟩ := hs
    dsimp only at e1
    unfold varCmp at e1
    rw [if_neg (by rw [show (b.dec a.P1 a.I a.U).pair = a.P1 b.start from rfl, h.P1, hp]; simp)] at e1
    have hf : renameFind (a.st L).f1.ren (b.dec a.P1 a.I a.U).name = none := by
      have := renFind_mapOf h.ok1 k0
      rw [show mapOf a.r1 b.name.text = none from (hc b.name.text).2] at this
      exact Option.map_eq_none_iff.mp this
    rw [hf, if_neg (by simp), if_neg (by
      rw [show kpstrcmp (b.dec a.P0 noFlag noFlag).human (b.dec a.P1 a.I a.U).human = kpstrcmp b.human b.human from rfl,
        (kpstrcmp_zero (hL.ok0 b hb).2.1 (hL.ok0 b hb).2.1).mpr rfl]; simp)] at e1
    rw [AnSt.add0, Option.bind_eq_some_iff] at e1
    obtain ⟨s2, e2, e1⟩ := e1
    rw [Option.map_eq_some_iff] at e2
    obtain ⟨t0, e2, rfl⟩ := e2
    rw [AnSt.add1, Option.bind_eq_some_iff] at e1
    obtain ⟨s3, e3, e1⟩ := e1
    rw [Option.map_eq_some_iff] at e3
    obtain ⟨t1, e3, rfl⟩ := e3
    obtain ⟨q0, w0⟩ := renameAdd_self h.ok0 k0 e2
    obtain ⟨q1, w1⟩ := renameAdd_self h.ok1 k0 e3
    have h2 : Mir L { a with r0 := t0, r1 := t1 } := h.of_eq q0 q1 w0 w1 rfl rfl
    dsimp only at e1
    rw [h2.same hT b] at e1
    rw [AnSt.del0, Option.bind_eq_some_iff] at e1
    obtain ⟨s4, e4, e1⟩ := e1
    rw [Option.map_eq_some_iff] at e4
    obtain ⟨t2, e4, rfl⟩ := e4
    rw [AnSt.del1, Option.map_eq_some_iff] at e1
    obtain ⟨s5, e5, e1⟩ := e1
    rw [Option.map_eq_some_iff] at e5
    obtain ⟨t3, e5, rfl⟩ := e5
    cases e1
    dsimp only at hs
    rw [if_pos rfl] at hs
    cases hs
    obtain ⟨q2, w2⟩ := renameDel_map q0 k0 e4
    obtain ⟨q3, w3⟩ := renameDel_map q1 k0 e5
    have c0 : ∀ t, mapOf t2 t = none := fun t => by
      rw [w2, w0, show mapOf a.r0 t = none from (hc t).1]; split <;> rfl
    have c1 : ∀ t, mapOf t3 t = none := fun t => by
      rw [w3, w1, show mapOf a.r1 t = none from (hc t).2]; split <;> rfl
    exact ⟨{ a with r0 := t2, r1 := t3 }, rfl, ⟨q2, q3, fun t => Or.inl ⟨c0 t, c1 t⟩, h.P, h.P1⟩, fun t => ⟨c0 t, c1 t⟩, rfl, rfl, rfl, rfl⟩

theorem varStep_self {o : GenOpts} {L : GSt} (hT : Twin L) (hL : LOk L) (hn : L.f0.Named) {a : AnSt} (h : Mir L a) (hc : AllClear L a) {b : GBlock}
    (hb : b ∈ L.f0.bs) (hty : b.ty = .var) (hd : ¬ descStr <+: b.name.text) (hp : a.P0 b.start = none) {pr : Bool} {pass : Nat} {v : VarSt}
    (hs : varStep o pass ⟨a.st L, some b.start, pr⟩ b.start = some v) :
    ∃ a', v = ⟨a'.st L, L.f1.nextFrom (b.start + 1) .var, true⟩ ∧ Mir L a' ∧ AllClear L a' ∧ a'.P0 = setAt a.P0 b.start (some b.start) ∧
      a'.I = a.I ∧ a'.U = a.U := by
  have k0 := (hL.ok0 b hb).1
  unfold varStep at hs
  dsimp only at hs
  rw [at_dec0 hL hb] at hs
  dsimp only at hs
  rw [if_neg (by rw [show (b.dec a.P0 noFlag noFlag).pair = a.P0 b.start from rfl, hp]; simp),
    if_neg (fun e => hd ((C41_prefix b.name k0 descStr).mp e.2)), Option.bind_some, at_dec1 hL (hT.mem hb), Option.bind_eq_some_iff] at hs
  obtain ⟨⟨s1, res⟩, e1, hs⟩ := hs
  obtain ⟨a1, rfl, h1, hc1, p1, i1, u1, rfl⟩ := varTry_self hT hL hn h hc hb hty hp e1
  dsimp only at hs
  rw [AnSt.add0, Option.bind_eq_some_iff] at hs
  obtain ⟨s2, e2, hs⟩ := hs
  rw [Option.map_eq_some_iff] at e2
  obtain ⟨t0, e2, rfl⟩ := e2
  rw [AnSt.add1, Option.map_eq_some_iff] at hs
  obtain ⟨s3, e3, hs⟩ := hs
  rw [Option.map_eq_some_iff] at e3
  obtain ⟨t1, e3, rfl⟩ := e3
  obtain ⟨q0, w0⟩ := renameAdd_self h1.ok0 k0 e2
  obtain ⟨q1, w1⟩ := renameAdd_self h1.ok1 k0 e3
  have h2 : Mir L { a1 with r0 := t0, r1 := t1 } := h1.of_eq q0 q1 w0 w1 rfl rfl
  subst hs
  rw [AnSt.setPair]
  refine ⟨_, ?_, h2.setPair b.start, fun t => ⟨(congrFun w0 t).trans (hc1 t).1, (congrFun w1 t).trans (hc1 t).2⟩, ?_, i1, u1⟩
  · congr 1
    exact dec_nextFrom ..
  · show setAt a1.P0 _ _ = _
    rw [p1]

/-- The state after the variables: all are paired. -/
structure VarsDone (L : GSt) (a a' : AnSt) : Prop where
  mir : Mir L a'
  clear : AllClear L a'
  I : a'.I = a.I
  U : a'.U = a.U
  paired : ∀ b ∈ L.f0.bs, b.ty = .var → a'.P0 b.start = some b.start
  others : ∀ b ∈ L.f0.bs, b.ty ≠ .var → a'.P0 b.start = a.P0 b.start

theorem varFold_self {o : GenOpts} {L : GSt} (hT : Twin L) (hL : LOk L) (ho : InOrder L.f0) (hn : L.f0.Named)
    (hd : ∀ b ∈ L.f0.bs, b.ty = .var → ¬ descStr <+: b.name.text) {pass : Nat} : ∀ (suf pre : List Nat) (a : AnSt) (pr : Bool) (v : VarSt),
    L.f0.starts .var = pre ++ suf → Mir L a → AllClear L a → (∀ p ∈ suf, a.P0 p = none) →
    (suf.foldlM (varStep o pass) ⟨a.st L, suf.head?, pr⟩) = some v →
    ∃ a', v.s = a'.st L ∧ Mir L a' ∧ AllClear L a' ∧ a'.I = a.I ∧ a'.U = a.U ∧ (∀ p ∈ suf, a'.P0 p = some p) ∧
      (∀ p, p ∉ suf → a'.P0 p = a.P0 p) := by
  have hoT : InOrder L.f1 := ⟨by rw [hT.bs]; exact ho.sorted, by rw [hT.bs]; exact ho.nonempty⟩
  intro suf
  induction suf with
  | nil =>
    intro pre a pr v _ h hc _ hs
    cases hs
    exact ⟨a, rfl, h, hc, rfl, rfl, fun p hp => (by cases hp), fun p _ => rfl⟩
  | cons p suf ih =>
    intro pre a pr v e h hc hnone hs
    rw [List.foldlM_cons] at hs
    change Option.bind _ _ = _ at hs
    rw [Option.bind_eq_some_iff] at hs
    obtain ⟨v1, e1, hs⟩ := hs
    have hp : p ∈ L.f0.starts .var := by rw [e]; simp
    have hnd : p ∉ suf := by
      have := starts_sorted ho .var
      rw [e, List.pairwise_append, List.pairwise_cons] at this
      intro hm
      exact Nat.lt_irrefl _ (this.2.1.1 p hm)
    obtain ⟨b, hb, hty, rfl⟩ := (starts_mem hL.st0).mp hp
    obtain ⟨a1, rfl, h1, hc1, p1, i1, u1⟩ := varStep_self hT hL hn h hc hb hty (hd b hb hty) (hnone _ (by simp)) e1
    rw [nextFrom_suffix hoT (by rw [hT.starts]; exact e)] at hs
    obtain ⟨a2, q1, q2, q3, q4, q5, q6, q7⟩ := ih (pre ++ [b.start]) a1 true v (by rw [e]; simp) h1 hc1 (fun q hq => by
      rw [p1]
      exact (setAt_ne _ _ (fun e' : q = b.start => hnd (e' ▸ hq))).trans (hnone q (by simp [hq]))) hs
    refine ⟨a2, q1, q2, q3, q4.trans i1, q5.trans u1, fun q hq => ?_, fun q hq => ?_⟩
    · rcases List.mem_cons.mp hq with rfl | hq
      · rw [q7 _ hnd, p1]
        exact setAt_same ..
      · exact q6 q hq
    · rw [List.mem_cons, not_or] at hq
      rw [q7 q hq.2, p1]
      exact setAt_ne _ _ hq.1

theorem varPasses_done {o : GenOpts} {L : GSt} (hL : LOk L) {a : AnSt} (hp : ∀ b ∈ L.f0.bs, b.ty = .var → (a.P0 b.start).isSome = true) :
    ∀ (fuel pass : Nat) (s : GSt), varPasses o fuel pass (a.st L) = some s → s = a.st L := by
  intro fuel
  induction fuel with
  | zero => intro pass s hs; cases hs; rfl
  | succ fuel ih =>
    intro pass s hs
    rw [varPasses, Option.bind_eq_some_iff] at hs
    obtain ⟨v, e1, hs⟩ := hs
    rw [show (a.st L).f0.starts .var = L.f0.starts .var from dec_starts ..] at e1
    have hv := foldlM_inv (fun v : VarSt => v.s = a.st L) rfl
      (fun p v v' hpm hv hst => by
        obtain ⟨b, hb, hty, rfl⟩ := (starts_mem hL.st0).mp hpm
        unfold varStep at hst
        rw [hv, at_dec0 hL hb] at hst
        dsimp only at hst
        rw [if_pos (show (b.dec a.P0 noFlag noFlag).pair.isSome = true from hp b hb hty)] at hst
        cases hst
        exact hv) e1
    dsimp only at hs
    rw [hv] at hs
    generalize (if v.progress = true then pass else pass + 1) = ps at hs
    split at hs
    · exact ih _ s hs
    · cases hs; rfl

theorem analyzeVars_self {o : GenOpts} {L : GSt} (hT : Twin L) (hL : LOk L) (ho : InOrder L.f0) (hn : L.f0.Named)
    (hd : ∀ b ∈ L.f0.bs, b.ty = .var → ¬ descStr <+: b.name.text) {a : AnSt} (h : Mir L a) (hc : AllClear L a)
    (hnone : ∀ b ∈ L.f0.bs, b.ty = .var → a.P0 b.start = none) {s : GSt} (hs : analyzeVars o (a.st L) = some s) :
    ∃ a', s = a'.st L ∧ VarsDone L a a' := by
  unfold analyzeVars at hs
  rw [Option.bind_eq_some_iff] at hs
  obtain ⟨s1, e1, hs⟩ := hs
  unfold varMatches at e1
  rw [Option.bind_eq_some_iff] at e1
  obtain ⟨s0, e0, e1⟩ := e1
  split at e1
  case isFalse => cases e1
  cases e1
  split at hs
  case isFalse => cases hs
  have key : ∃ a', s1 = a'.st L ∧ VarsDone L a a' := by
    rw [show ((a.st L).f0.starts .var).length + 2 = (((a.st L).f0.starts .var).length + 1) + 1 from rfl, varPasses,
      Option.bind_eq_some_iff] at e0
    obtain ⟨v, e2, e0⟩ := e0
    rw [show (a.st L).f0.starts .var = L.f0.starts .var from dec_starts ..,
      show (a.st L).f1.nextFrom 0 .var = L.f1.nextFrom 0 .var from dec_nextFrom .., nextFrom_zero, hT.starts] at e2
    obtain ⟨a1, q1, q2, q3, q4, q5, q6, q7⟩ := varFold_self hT hL ho hn hd (L.f0.starts .var) [] a false v rfl h hc (fun p hp => by
      obtain ⟨b, hb, hty, rfl⟩ := (starts_mem hL.st0).mp hp
      exact hnone b hb hty) e2
    have hD : VarsDone L a a1 := ⟨q2, q3, q4, q5, fun b hb hty => q6 _ ((starts_mem hL.st0).mpr ⟨b, hb, hty, rfl⟩), fun b hb hty => q7 _ (fun hm => by
      obtain ⟨c, hc, e1, e2⟩ := (starts_mem hL.st0).mp hm
      have := start_inj hL.st0 hc hb e2
      subst this
      exact hty e1)⟩
    dsimp only at e0
    rw [q1] at e0
    generalize (if v.progress = true then 0 else 0 + 1) = ps at e0
    split at e0
    · exact ⟨a1, varPasses_done hL (fun b hb hty => by rw [hD.paired b hb hty]; rfl) _ _ _ e0, hD⟩
    · cases e0; exact ⟨a1, rfl, hD⟩
  obtain ⟨a1, rfl, hD⟩ := key
  rw [Option.map_eq_some_iff] at hs
  obtain ⟨f, e2, rfl⟩ := hs
  rw [show (a1.st L).f1.starts .var = L.f1.starts .var from dec_starts ..] at e2
  have hf := foldlM_inv (fun f : GFile => f = (a1.st L).f1) rfl
    (fun p f f' hpm hv hst => by
      obtain ⟨b, hb, hty, rfl⟩ := (starts_mem hL.st1).mp hpm
      unfold newVarStep at hst
      rw [hv, at_dec1 hL hb] at hst
      dsimp only at hst
      rw [if_pos (by
        rw [show (b.dec a1.P1 a1.I a1.U).pair = a1.P1 b.start from rfl, hD.mir.P1, hD.paired b (hT.mem' hb) hty]; rfl)] at hst
      cases hst
      rfl) e2
  subst hf
  exact ⟨a1, rfl, hD⟩

/-! ### Functions -/

theorem pairFuncs_self {L : GSt} (hT : Twin L) (hL : LOk L) {a : AnSt} (h : Mir L a) {b : GBlock} (hb : b ∈ L.f0.bs) {P P' : Corresp}
    {I U I' U' : Nat → Bool} {s : GSt} (hs : pairFuncs (a.st L) (b.dec P I U) (b.dec P' I' U') = some s) :
    ∃ a', s = a'.st L ∧ Mir L a' ∧ a'.P0 = setAt a.P0 b.start (some b.start) ∧ a'.I = a.I ∧ a'.U = a.U := by
  have k0 := (hL.ok0 b hb).1
  have hko : (kpatchName b.name).Ok := kpz_ok _
  unfold pairFuncs at hs
  rw [AnSt.setPair, funcLabels_eq, labels_dec, labels_dec, hT.labels, matchLabels_self, Option.map_some, Option.bind_some, AnSt.del0,
    Option.bind_eq_some_iff] at hs
  obtain ⟨s1, e1, hs⟩ := hs
  rw [Option.map_eq_some_iff] at e1
  obtain ⟨t0, e1, rfl⟩ := e1
  rw [AnSt.add1, Option.bind_eq_some_iff] at hs
  obtain ⟨s2, e2, hs⟩ := hs
  rw [Option.map_eq_some_iff] at e2
  obtain ⟨t1, e2, rfl⟩ := e2
  rw [AnSt.add0, Option.map_eq_some_iff] at hs
  obtain ⟨t2, e3, rfl⟩ := hs
  dsimp only [GBlock.dec] at e1 e2 e3
  obtain ⟨q0, w0⟩ := renameDel_map h.ok0 k0 e1
  have q1 := (renameAdd_map h.ok1 k0 hko e2).1
  have q2 := (renameAdd_map q0 k0 hko e3).1
  have w1 := renameAdd_eq h.ok1 k0 hko e2
  have w2 := renameAdd_eq q0 k0 hko e3
  have hm := h.setPair b.start
  refine ⟨_, rfl, ⟨q2, q1, fun t => ?_, hm.P, hm.P1⟩, rfl, rfl, rfl⟩
  have w1 := w1 t
  have w2 := w2 t
  rw [kpatchName_text] at w1 w2
  by_cases hc : t = b.name.text
  · subst hc
    rw [if_pos ⟨rfl, kp0_ne _⟩] at w1 w2
    exact Or.inr ⟨w2, w1⟩
  · rw [if_neg (fun e => hc e.1)] at w1 w2
    rw [w0, if_neg hc] at w2
    exact (h.bal t).eq w2 w1

theorem exactFold_self {L : GSt} (hT : Twin L) (hL : LOk L) (hn : L.f0.Named) {a : AnSt} (h : Mir L a) {s : GSt}
    (hs : ((a.st L).f0.starts .func).foldlM funcExactStep (a.st L) = some s) :
    ∃ a', s = a'.st L ∧ Mir L a' ∧ a'.I = a.I ∧ a'.U = a.U ∧
      (∀ b ∈ L.f0.bs, b.ty = .func → b.auto = false → (a'.P0 b.start).isSome = true) := by
  rw [show (a.st L).f0.starts .func = L.f0.starts .func from dec_starts ..] at hs
  obtain ⟨a', q1, q2, q3, q4, q5⟩ := foldlM_nodup funcExactStep
    (fun pre s => ∃ a', s = a'.st L ∧ Mir L a' ∧ a'.I = a.I ∧ a'.U = a.U ∧
      (∀ b ∈ L.f0.bs, b.start ∈ pre → b.auto = false → (a'.P0 b.start).isSome = true))
    (L.f0.starts .func) (by rw [starts_eq]; exact ofTy_nodup hL.st0 _) (a.st L) s ⟨a, rfl, h, rfl, rfl, fun _ _ hm => by cases hm⟩
    (fun pre p s s' hp hpre hi hst => by
      obtain ⟨a1, rfl, h1, i1, u1, r1⟩ := hi
      obtain ⟨b, hb, hty, rfl⟩ := (starts_mem hL.st0).mp hp
      unfold funcExactStep at hst
      rw [at_dec0 hL hb] at hst
      dsimp only at hst
      split at hst
      · rename_i hau
        cases hst
        refine ⟨a1, rfl, h1, i1, u1, fun c hc hm hca => ?_⟩
        rw [List.mem_append, List.mem_singleton] at hm
        rcases hm with hm | hm
        · exact r1 c hc hm hca
        · have := start_inj hL.st0 hc hb hm
          subst this
          rw [show (c.dec a1.P0 noFlag noFlag).auto = c.auto from rfl, hca] at hau
          cases hau
      · rw [show (a1.st L).f1.find (b.dec a1.P0 noFlag noFlag).name = (L.f1.find b.name).map (GBlock.dec a1.P1 a1.I a1.U) from dec_find ..,
          find_of_name' hL (hT.mem hb) (hL.ok0 b hb).1 rfl (hn b hb (Or.inl hty))] at hst
        dsimp only [Option.map_some] at hst
        obtain ⟨a2, rfl, h2, p2, i2, u2⟩ := pairFuncs_self hT hL h1 hb hst
        refine ⟨a2, rfl, h2, i2.trans i1, u2.trans u1, fun c hc hm hca => ?_⟩
        rw [p2]
        unfold setAt
        split
        · rfl
        · rename_i hne
          rw [List.mem_append, List.mem_singleton] at hm
          exact r1 c hc (hm.resolve_right hne) hca) hs
  exact ⟨a', q1, q2, q3, q4, fun b hb hty hau => q5 b hb ((starts_mem hL.st0).mpr ⟨b, hb, hty, rfl⟩) hau⟩

theorem findHuman_self {L : GSt} (hT : Twin L) (hL : LOk L) {b : GBlock} (hb : b ∈ L.f0.bs)
    (hu : ∀ c ∈ L.f0.bs, c.human.text = b.human.text → c = b) : L.f1.findHuman b.human = some b := by
  have ho := (hL.ok0 b hb).2.1
  cases hf : L.f1.findHuman b.human with
  | none =>
    have := List.find?_eq_none.mp hf b (hT.mem hb)
    simp [(kpstrcmp_zero ho ho).mpr rfl] at this
  | some c =>
    obtain ⟨hc, e⟩ := findHuman_some hf
    rw [hu c (hT.mem' hc) ((kpstrcmp_zero (hL.ok1 c hc).2.1 ho).mp e)]

/-- All functions are paired. -/
def AllPaired (L : GSt) (a : AnSt) : Prop := ∀ b ∈ L.f0.bs, b.ty = .func → (a.P0 b.start).isSome = true

theorem autoFold_self {o : GenOpts} {L : GSt} (hT : Twin L) (hL : LOk L)
    (hh : ∀ b ∈ L.f0.bs, b.ty = .func → b.auto = true → ∀ c ∈ L.f0.bs, c.human.text = b.human.text → c = b) {a : AnSt} (h : Mir L a)
    (hex : ∀ b ∈ L.f0.bs, b.ty = .func → b.auto = false → (a.P0 b.start).isSome = true) {s : GSt}
    (hs : ((a.st L).f0.starts .func).foldlM (funcAutoStep o true) (a.st L) = some s) :
    ∃ a', s = a'.st L ∧ Mir L a' ∧ a'.I = a.I ∧ a'.U = a.U ∧ AllPaired L a' := by
  rw [show (a.st L).f0.starts .func = L.f0.starts .func from dec_starts ..] at hs
  obtain ⟨a', q1, q2, q3, q4, q5, q6⟩ := foldlM_nodup (funcAutoStep o true)
    (fun pre s => ∃ a', s = a'.st L ∧ Mir L a' ∧ a'.I = a.I ∧ a'.U = a.U ∧ (∀ p, (a.P0 p).isSome = true → (a'.P0 p).isSome = true) ∧
      (∀ b ∈ L.f0.bs, b.start ∈ pre → b.auto = true → (a'.P0 b.start).isSome = true))
    (L.f0.starts .func) (by rw [starts_eq]; exact ofTy_nodup hL.st0 _) (a.st L) s
    ⟨a, rfl, h, rfl, rfl, fun _ h => h, fun _ _ hm => by cases hm⟩
    (fun pre p s s' hp hpre hi hst => by
      obtain ⟨a1, rfl, h1, i1, u1, m1, r1⟩ := hi
      obtain ⟨b, hb, hty, rfl⟩ := (starts_mem hL.st0).mp hp
      unfold funcAutoStep at hst
      rw [at_dec0 hL hb] at hst
      dsimp only at hst
      split at hst
      · rename_i hau
        cases hst
        refine ⟨a1, rfl, h1, i1, u1, m1, fun c hc hm hca => ?_⟩
        rw [List.mem_append, List.mem_singleton] at hm
        rcases hm with hm | hm
        · exact r1 c hc hm hca
        · have := start_inj hL.st0 hc hb hm
          subst this
          rcases hau with hau | hau
          · exact hau
          · rw [show (c.dec a1.P0 noFlag noFlag).auto = c.auto from rfl, hca] at hau
            cases hau
      · rename_i hcond
        rw [not_or] at hcond
        have hau : b.auto = true := by have : ¬ b.auto = false := hcond.2; simpa using this
        have hnp : a1.P0 b.start = none := by have : ¬ (a1.P0 b.start).isSome = true := hcond.1; simpa using this
        unfold funcByHuman at hst
        rw [show (a1.st L).f1.findHuman (b.dec a1.P0 noFlag noFlag).human = (L.f1.findHuman b.human).map (GBlock.dec a1.P1 a1.I a1.U) from
          dec_findHuman .., findHuman_self hT hL hb (hh b hb hty hau)] at hst
        dsimp only [Option.map_some] at hst
        rw [if_neg (by
          rw [show (b.dec a1.P1 a1.I a1.U).auto = b.auto from rfl, hau, show (b.dec a1.P1 a1.I a1.U).pair = a1.P1 b.start from rfl, h1.P1, hnp]
          simp), if_pos rfl, funcLabels_eq, labels_dec, labels_dec, hT.labels, matchLabels_self, Option.map_some, Option.bind_some] at hst
        rw [h1.same hT b, funcLabels_eq, labels_dec, labels_dec, hT.labels, matchLabels_self, Option.map_some, Option.map_some,
          Option.bind_some, if_pos rfl] at hst
        dsimp only at hst
        obtain ⟨a2, rfl, h2, p2, i2, u2⟩ := pairFuncs_self hT hL h1 hb hst
        refine ⟨a2, rfl, h2, i2.trans i1, u2.trans u1, fun p hp => ?_, fun c hc hm hca => ?_⟩
        · rw [p2]
          unfold setAt
          split
          · rfl
          · exact m1 p hp
        · rw [p2]
          unfold setAt
          split
          · rfl
          · rename_i hne
            rw [List.mem_append, List.mem_singleton] at hm
            exact r1 c hc (hm.resolve_right hne) hca) hs
  refine ⟨a', q1, q2, q3, q4, fun b hb hty => ?_⟩
  cases hau : b.auto with
  | true => exact q6 b hb ((starts_mem hL.st0).mpr ⟨b, hb, hty, rfl⟩) hau
  | false => exact q5 _ (hex b hb hty hau)

theorem AllPaired.at {L : GSt} (hL : LOk L) {a : AnSt} (h : Mir L a) (hp : AllPaired L a) {b : GBlock} (hb : b ∈ L.f0.bs) (hty : b.ty = .func) :
    (b.dec a.P1 a.I a.U).pair.bind (a.st L).f0.at = some (b.dec a.P0 noFlag noFlag) := by
  obtain ⟨q, e⟩ := Option.isSome_iff_exists.mp (hp b hb hty)
  rw [show (b.dec a.P1 a.I a.U).pair = a.P1 b.start from rfl, h.P1, e, h.P _ _ e, Option.bind_some, at_dec0 hL hb]

theorem del_mir {L : GSt} {a : AnSt} (h : Mir L a) {x : Kpstr} (hx : x.Ok) {t0 t1 : Renames} (e0 : renameDel a.r0 x = some t0)
    (e1 : renameDel a.r1 x = some t1) : Mir L { a with r0 := t0, r1 := t1 } :=
  ⟨(renameDel_map h.ok0 hx e0).1, (renameDel_map h.ok1 hx e1).1,
    fun t => del_bal (s := a.st L) h.ok0 h.ok1 hx hx e0 e1 Iff.rfl (h.bal t), h.P, h.P1⟩

theorem listStep_self {o : GenOpts} {L : GSt} (hT : Twin L) (hL : LOk L) {a : AnSt} (h : Mir L a) (hp : AllPaired L a) {p : Nat}
    (hpm : p ∈ L.f0.starts .func) {s : GSt} (hs : funcListStep o (a.st L) p = some s) :
    ∃ a', s = a'.st L ∧ Mir L a' ∧ AllPaired L a' := by
  obtain ⟨b, hb, hty, rfl⟩ := (starts_mem hL.st0).mp hpm
  unfold funcListStep at hs
  rw [at_dec1 hL (hT.mem hb)] at hs
  dsimp only at hs
  rw [hp.at hL h hb hty] at hs
  dsimp only at hs
  rw [Option.map_eq_some_iff] at hs
  obtain ⟨s1, e1, hs⟩ := hs
  have key : ∃ a', s1 = a'.st L ∧ Mir L a' ∧ AllPaired L a' := by
    split at e1
    · rw [AnSt.del1, Option.bind_eq_some_iff] at e1
      obtain ⟨s2, e2, e1⟩ := e1
      rw [Option.map_eq_some_iff] at e2
      obtain ⟨t1, e2, rfl⟩ := e2
      rw [AnSt.del0, Option.map_eq_some_iff] at e1
      obtain ⟨s3, e3, rfl⟩ := e1
      rw [Option.map_eq_some_iff] at e3
      obtain ⟨t0, e3, rfl⟩ := e3
      have hd := del_mir h (hL.ok0 b hb).1 e3 e2
      refine ⟨{ a with r0 := t0, r1 := t1, I := setAt a.I b.start true }, ?_, ⟨hd.ok0, hd.ok1, hd.bal, hd.P, hd.P1⟩, hp⟩
      unfold AnSt.st
      dsimp only
      rw [dec_ignore]
    · cases e1; exact ⟨a, rfl, h, hp⟩
  obtain ⟨a1, rfl, h1, hp1⟩ := key
  split at hs
  · subst hs
    refine ⟨{ a1 with U := setAt a1.U b.start true }, ?_, ⟨h1.ok0, h1.ok1, h1.bal, h1.P, h1.P1⟩, hp1⟩
    unfold AnSt.st
    dsimp only
    rw [dec_unlink]
  · subst hs; exact ⟨a1, rfl, h1, hp1⟩

theorem sameStep_self {o : GenOpts} {L : GSt} (hT : Twin L) (hL : LOk L) {a : AnSt} (h : Mir L a) (hp : AllPaired L a) {p : Nat} {bad bad' : Bool}
    (hpm : p ∈ L.f0.starts .func) {s : GSt} (hs : funcSameStep o (a.st L, bad) p = some (s, bad')) :
    ∃ a', s = a'.st L ∧ Mir L a' ∧ AllPaired L a' ∧ a'.I p = true ∧ ∀ q, a.I q = true → a'.I q = true := by
  obtain ⟨b, hb, hty, rfl⟩ := (starts_mem hL.st0).mp hpm
  unfold funcSameStep at hs
  dsimp only at hs
  rw [at_dec1 hL (hT.mem hb)] at hs
  dsimp only at hs
  rw [hp.at hL h hb hty] at hs
  dsimp only at hs
  split at hs
  · rename_i hig
    cases hs
    exact ⟨a, rfl, h, hp, hig, fun _ h => h⟩
  rw [h.same hT b, if_pos rfl, AnSt.del0, Option.bind_eq_some_iff] at hs
  obtain ⟨s1, e1, hs⟩ := hs
  rw [Option.map_eq_some_iff] at e1
  obtain ⟨t0, e1, rfl⟩ := e1
  rw [AnSt.del1, Option.bind_eq_some_iff] at hs
  obtain ⟨s2, e2, hs⟩ := hs
  rw [Option.map_eq_some_iff] at e2
  obtain ⟨t1, e2, rfl⟩ := e2
  rw [AnSt.add0, Option.bind_eq_some_iff] at hs
  obtain ⟨s3, e3, hs⟩ := hs
  rw [Option.map_eq_some_iff] at e3
  obtain ⟨t2, e3, rfl⟩ := e3
  rw [AnSt.add1, Option.map_eq_some_iff] at hs
  obtain ⟨s4, e4, hs⟩ := hs
  rw [Option.map_eq_some_iff] at e4
  obtain ⟨t3, e4, rfl⟩ := e4
  have hs : _ = s ∧ _ = bad' := Prod.mk.inj hs
  obtain ⟨rfl, _⟩ := hs
  have k0 := (hL.ok0 b hb).1
  have hd := del_mir h k0 e1 e2
  obtain ⟨q0, w0⟩ := renameAdd_self hd.ok0 k0 e3
  obtain ⟨q1, w1⟩ := renameAdd_self hd.ok1 k0 e4
  have h2 : Mir L { a with r0 := t2, r1 := t3 } := hd.of_eq q0 q1 w0 w1 rfl rfl
  refine ⟨{ a with r0 := t2, r1 := t3, I := setAt a.I b.start true }, ?_, ⟨h2.ok0, h2.ok1, h2.bal, h2.P, h2.P1⟩, hp, setAt_same .., fun q hq => ?_⟩
  · unfold AnSt.st
    dsimp only
    rw [dec_ignore]
  · dsimp only [setAt]
    split
    · rfl
    · exact hq

theorem analyzeFuncs_self {o : GenOpts} {L : GSt} (hT : Twin L) (hL : LOk L) (hn : L.f0.Named)
    (hh : ∀ b ∈ L.f0.bs, b.ty = .func → b.auto = true → ∀ c ∈ L.f0.bs, c.human.text = b.human.text → c = b) {a : AnSt} (h : Mir L a) {s : GSt}
    (hs : analyzeFuncs o (a.st L) = some s) :
    ∃ a' : AnSt, s = a'.st L ∧ ∀ b ∈ L.f0.bs, b.ty = .func → a'.I b.start = true ∧ a'.P1 b.start = some b.start ∧ a'.P0 b.start = some b.start := by
  unfold analyzeFuncs at hs
  rw [Option.bind_eq_some_iff] at hs
  obtain ⟨s1, e1, hs⟩ := hs
  obtain ⟨a1, rfl, h1, i1, u1, x1⟩ := exactFold_self hT hL hn h e1
  rw [Option.bind_eq_some_iff] at hs
  obtain ⟨s2, e2, hs⟩ := hs
  obtain ⟨a2, rfl, h2, i2, u2, p2⟩ := autoFold_self hT hL hh h1 x1 e2
  rw [Option.bind_eq_some_iff] at hs
  obtain ⟨s3, e3, hs⟩ := hs
  have hstarts0 : ∀ b : AnSt, (b.st L).f0.starts .func = L.f0.starts .func := fun b => dec_starts ..
  have hstarts1 : ∀ b : AnSt, (b.st L).f1.starts .func = L.f0.starts .func := fun b => (dec_starts ..).trans (hT.starts _)
  rw [hstarts0] at e3
  have h3 := foldlM_inv (fun s => s = a2.st L) rfl (fun p s s' hpm hi hst => by
    subst hi
    obtain ⟨b, hb, hty, rfl⟩ := (starts_mem hL.st0).mp hpm
    unfold funcAutoStep at hst
    rw [at_dec0 hL hb] at hst
    dsimp only at hst
    rw [if_pos (Or.inl (show (b.dec a2.P0 noFlag noFlag).pair.isSome = true from p2 b hb hty))] at hst
    cases hst
    rfl) e3
  subst h3
  rw [Option.bind_eq_some_iff] at hs
  obtain ⟨f4, e4, hs⟩ := hs
  rw [hstarts1] at e4
  have h4 := foldlM_inv (fun f : GFile => f = (a2.st L).f1) rfl (fun p f f' hpm hi hst => by
    subst hi
    obtain ⟨b, hb, hty, rfl⟩ := (starts_mem hL.st0).mp hpm
    unfold newFuncStep at hst
    rw [at_dec1 hL (hT.mem hb)] at hst
    dsimp only at hst
    rw [if_pos (show (b.dec a2.P1 a2.I a2.U).pair.isSome = true from by
      rw [show (b.dec a2.P1 a2.I a2.U).pair = a2.P1 b.start from rfl, h2.P1]; exact p2 b hb hty)] at hst
    cases hst
    rfl) e4
  subst h4
  rw [Option.bind_eq_some_iff] at hs
  obtain ⟨s5, e5, hs⟩ := hs
  rw [hstarts1] at e5
  have h5 := foldlM_inv (fun s => ∃ a', s = a'.st L ∧ Mir L a' ∧ AllPaired L a') ⟨a2, rfl, h2, p2⟩ (fun p s s' hpm hi hst => by
    obtain ⟨b, rfl, hb1, hb2⟩ := hi
    exact listStep_self hT hL hb1 hb2 hpm hst) e5
  obtain ⟨a5, rfl, h5, p5⟩ := h5
  rw [Option.bind_eq_some_iff] at hs
  obtain ⟨⟨s6, bad⟩, e6, hs⟩ := hs
  rw [hstarts1] at e6
  have h6 := foldlM_nodup (funcSameStep o)
    (fun pre x => ∃ a', x.1 = a'.st L ∧ Mir L a' ∧ AllPaired L a' ∧ ∀ p ∈ pre, a'.I p = true)
    (L.f0.starts .func) (by rw [starts_eq]; exact ofTy_nodup hL.st0 _) (a5.st L, false) (s6, bad)
    ⟨a5, rfl, h5, p5, fun p hp => by cases hp⟩ (fun pre p x x' hpm hpre hi hst => by
      obtain ⟨x, bd⟩ := x
      obtain ⟨x', bd'⟩ := x'
      obtain ⟨b, e, hb1, hb2, hb3⟩ := hi
      dsimp only at e
      subst e
      obtain ⟨c, w1, w2, w3, w4, w5⟩ := sameStep_self hT hL hb1 hb2 hpm hst
      refine ⟨c, w1, w2, w3, fun q hq => ?_⟩
      rw [List.mem_append, List.mem_singleton] at hq
      rcases hq with hq | rfl
      · exact w5 q (hb3 q hq)
      · exact w4) e6
  obtain ⟨a6, e, h6, p6, g6⟩ := h6
  dsimp only at e hs
  split at hs
  · cases hs
  cases hs
  refine ⟨a6, e, fun b hb hty => ⟨g6 _ ((starts_mem hL.st0).mpr ⟨b, hb, hty, rfl⟩), ?_⟩⟩
  obtain ⟨q, e⟩ := Option.isSome_iff_exists.mp (p6 b hb hty)
  rw [h6.P1, e, h6.P _ _ e]
  exact ⟨rfl, rfl⟩

end Verif
