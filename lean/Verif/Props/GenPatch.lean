import Verif.Proof.GenPatch
/-
C46: changed functions are never dropped.  C69: changed data are refused.

`loadBoth i0 i1 = some L` says what the blocks of the two files are (C44, C64), `gensrc o i0 i1 = some out` that the generator
succeeds and writes `out`.
-/
namespace Verif

section Target

variable [AsmTarget]

section
variable {o : GenOpts} {i0 i1 : GenInput} {L : GSt} {out : List Out}

/-- C46: the generated file contains all functions and variables of the old file, unchanged and in file order, followed by
its declarations (with their symbols renamed), and nothing else of the old file. -/
theorem C46_originals (h0 : i0.IsText) (h1 : i1.IsText) (hL : loadBoth i0 i1 = some L) (hn : L.f0.Named)
    (h : gensrc o i0 i1 = some out) :
    ∃ r, linesOf false out = L.f0.code.flatMap (verbatim L.f0 false) ++
      (L.f0.bs.filter fun b => b.ty = .attr).flatMap (attrLines (L.f0.withRen r) false) := by
  obtain ⟨a, s, hr⟩ := gensrc_run h0 h1 hL hn h
  obtain ⟨r2, hdr, olds, news, unl, att0, att1, oth, e, ehdr, ho, hnw, hu, ha0, ha1, hot⟩ := hr.wr.pieces
  refine ⟨a.r0, ?_⟩
  have z1 : linesOf false hdr = [] := by
    rw [ehdr]
    cases (s.f1.ofTy .other).head? with
    | none => rfl
    | some b => exact linesOf_verbatim' s.f1 true b
  have z2 : linesOf false news.flatten = [] := by
    rw [linesOf_flatten, forall₂_map (h := fun _ => []) hnw]
    · simp
    · intro b _ x hx
      unfold NewPiece at hx
      split at hx
      · rw [hx]; rfl
      · split at hx
        · obtain ⟨t, code, r, rfl, ht, hc, _⟩ := hx
          have := ht.1 false
          rw [show t :: (code ++ [.text [10#8], .info r]) = [t] ++ code ++ [.text [10#8], .info r] by simp, linesOf_append,
            linesOf_append, this, hc.noOld]
          rfl
        · exact hx.noOld
        · rw [hx]; rfl
  have z3 : linesOf false unl.flatten = [] := by
    rw [linesOf_flatten, forall₂_map (h := fun _ => []) hu]
    · simp
    · intro b _ x hx
      unfold UnlinkedPiece at hx
      split at hx
      · obtain ⟨t, code, r, rfl, ht, hc, _⟩ := hx
        have := ht.1 false
        rw [show t :: (code ++ [.text [10#8], .info r]) = [t] ++ code ++ [.text [10#8], .info r] by simp, linesOf_append,
          linesOf_append, this, hc.noOld]
        rfl
      · rw [hx]; rfl
  have z4 : linesOf false att1.flatten = [] := by
    rw [linesOf_flatten, forall₂_map (h := fun _ => []) ha1]
    · simp
    · intro b _ x hx
      rcases hx with rfl | ⟨rfl, _⟩
      · exact linesOf_attr' _ true b
      · rfl
  have z5 : linesOf false oth.flatten = [] := by
    rw [linesOf_flatten, forall₂_map (h := fun _ => []) hot]
    · simp
    · intro b _ x hx
      rcases hx with rfl | ⟨rfl, _⟩
      · exact linesOf_verbatim' _ true b
      · rfl
  have z6 : linesOf false olds.flatten = L.f0.code.flatMap (verbatim L.f0 false) := by
    rw [linesOf_flatten, forall₂_map (h := fun b => if b.ty = .func || b.ty = .var then verbatim s.f0 false b else []) ho]
    · have e1 : ∀ l : List GBlock, (l.map fun b => if (b.ty = .func || b.ty = .var) = true then verbatim s.f0 false b else []).flatten =
          (l.filter fun b => b.ty = .func || b.ty = .var).flatMap (verbatim s.f0 false) := by
        intro l
        induction l with
        | nil => rfl
        | cons b l ih =>
          rw [List.map_cons, List.flatten_cons, ih]
          by_cases hb : (decide (b.ty = .func) || decide (b.ty = .var)) = true
          · rw [List.filter_cons, if_pos hb, if_pos hb, List.flatMap_cons]
          · rw [List.filter_cons, if_neg hb, if_neg hb]; rfl
      rw [e1]
      have e2 : ∀ l : List GBlock, (l.filter fun b => decide (b.ty = .func) || decide (b.ty = .var)) =
          (l.filter GBlock.plain).filter fun b => decide (b.ty = .func) || decide (b.ty = .var) := by
        intro l
        rw [List.filter_filter]
        congr 1
        funext b
        unfold GBlock.plain
        cases b.ty <;> rfl
      rw [e2, hr.rest0.plain, ← e2]
      unfold GFile.code GFile.dec
      dsimp only
      rw [List.filter_map, List.flatMap_map]
      congr 1
      funext b
      exact hr.verb0 b
    · intro b _ x hx
      unfold OldPiece at hx
      cases ht : b.ty with
      | func =>
        rw [ht] at hx
        dsimp only at hx
        obtain ⟨pre, post, rfl, hp, hx⟩ := hx
        have : linesOf false post = [] := by
          split at hx
          · rw [hx]; rfl
          · split at hx
            · rw [hx]; rfl
            · obtain ⟨code, r, rfl, hc, _⟩ := hx
              rw [linesOf_append, linesOf_append, hc.noOld]; rfl
        rw [linesOf_append, linesOf_append, hp.1, this, linesOf_verbatim]
        simp
      | var =>
        rw [ht] at hx
        dsimp only at hx
        obtain ⟨pre, rfl, hp⟩ := hx
        rw [linesOf_append, hp.1, linesOf_verbatim]
        simp
      | attr => rw [ht] at hx; rw [hx]; rfl
      | other => rw [ht] at hx; rw [hx]; rfl
  have z7 : linesOf false att0.flatten = (L.f0.bs.filter fun b => b.ty = .attr).flatMap (attrLines (L.f0.withRen a.r0) false) := by
    rw [linesOf_flatten, forall₂_map (h := attrLines s.f0 false) ha0]
    · unfold GFile.ofTy
      have e2 : ∀ l : List GBlock, (l.filter fun b => decide (b.ty = .attr)) =
          (l.filter GBlock.plain).filter fun b => decide (b.ty = .attr) := by
        intro l
        rw [List.filter_filter]
        congr 1
        funext b
        unfold GBlock.plain
        cases b.ty <;> rfl
      rw [e2, hr.rest0.plain, ← e2]
      unfold GFile.dec
      dsimp only
      rw [List.filter_map, List.map_map, ← List.flatMap_def]
      congr 1
      funext b
      exact attrLines_congr hr.rest0.ls hr.rest0.nums hr.rest0.ren false rfl rfl
    · rintro b _ x rfl
      exact linesOf_attr _ _ b
  rw [e]
  simp only [linesOf_append, z1, z2, z3, z4, z5, z6, z7, List.nil_append, List.append_nil]

/-- C46: there is one correspondence `P` of the blocks of the two files, such that every function of the old file that the
new file still has is replaced in the generated file, unless the options ask to leave it out, or it is the same in the new
file.  The symbols of the replacement are renamed only to new symbols or to names of the old file.  Missing: functions whose
names are made by the compiler (`C46_nothing_lost_partial` has them), and the sense of `SameBlocks` when a name of the old
file stands for another name of the old file: see `C46_violated_static`. -/
theorem C46_changed_partial (h0 : i0.IsText) (h1 : i1.IsText) (hL : loadBoth i0 i1 = some L) (hn : L.f0.Named)
    (h : gensrc o i0 i1 = some out) : ∃ P r, Matching L P ∧ Justified L P r ∧
      ∀ b0 ∈ L.f0.bs, b0.ty = .func → b0.auto = false → ∀ b1 ∈ L.f1.bs, b1.name.text = b0.name.text →
        ignoredSym o L.f1.basename b1.human .func = false → inSyms L.f1.basename b1.human o.unlinkSyms = false →
        SameBlocks o L P b0 b1 ∨ Replaced o L r out b0 b1 := by
  obtain ⟨a, s, hr⟩ := gensrc_run h0 h1 hL hn h
  refine ⟨a.P0, a.r1, hr.an.inv.mat, hr.justified, fun b0 hb0 ht0 hau b1 hb1 hnm hni hnu => ?_⟩
  have hne := hn b0 hb0 (Or.inl ht0)
  obtain ⟨e1, e2⟩ := hr.an.exact b0 hb0 ht0 hau hne b1 (find_of_name hr.k1 hb1 (hr.k0.ok b0 hb0).1 hnm (hnm ▸ hne))
  cases hi : a.I b1.start with
  | true =>
    left
    obtain ⟨_, c0, hc0, e3, hs⟩ := hr.an.ign b1 hb1 hi
    rw [e2] at e3
    have : b0 = c0 := start_inj hr.k0.order.starts hb0 hc0 (Option.some.inj e3)
    subst this
    rcases hs with hs | hs
    · rw [hs] at hni; cases hni
    · exact hs
  | false =>
    right
    cases hu : a.U b1.start with
    | true =>
      obtain ⟨_, _, hs⟩ := hr.an.unl b1 hb1 hu
      rw [hs] at hnu
      cases hnu
    | false => exact hr.replaced hb0 ht0 hb1 e1 e2 hi hu

/-- C46: a function that differs however the blocks correspond is replaced. -/
theorem C46_changed_replaced_partial (h0 : i0.IsText) (h1 : i1.IsText) (hL : loadBoth i0 i1 = some L) (hn : L.f0.Named)
    (h : gensrc o i0 i1 = some out) {b0 b1 : GBlock} (hb0 : b0 ∈ L.f0.bs) (ht : b0.ty = .func) (hau : b0.auto = false)
    (hb1 : b1 ∈ L.f1.bs) (hnm : b1.name.text = b0.name.text) (hi : ignoredSym o L.f1.basename b1.human .func = false)
    (hu : inSyms L.f1.basename b1.human o.unlinkSyms = false) (hd : ∀ P, Matching L P → ¬ SameBlocks o L P b0 b1) :
    ∃ r, Replaced o L r out b0 b1 := by
  obtain ⟨P, r, hm, _, hall⟩ := C46_changed_partial h0 h1 hL hn h
  exact ⟨r, (hall b0 hb0 ht hau b1 hb1 hnm hi hu).resolve_left (hd P hm)⟩

/-- Statements of the same code that are compared have a counterpart. -/
theorem SameCode.statement0 {c : CmpSpec} {l0 l1 : List Ln} (hs : SameCode c l0 l1) (ht : c.ty = .func) :
    ∀ a ∈ l0, Compared c.os a → ∃ b ∈ l1, c.sameTokens a.text b.text := by
  induction hs with
  | nil => intro a ha; cases ha
  | skip0 hi _ ih =>
    intro a ha hc
    rcases List.mem_cons.1 ha with rfl | ha
    · exact absurd hi hc.code
    · exact ih a ha hc
  | skip1 hi _ ih =>
    intro a ha hc
    obtain ⟨b, hb, h⟩ := ih a ha hc
    exact ⟨b, List.mem_cons_of_mem _ hb, h⟩
  | line _ he _ ih =>
    intro a ha hc
    rcases List.mem_cons.1 ha with rfl | ha
    · exact ⟨_, List.mem_cons_self, he⟩
    · obtain ⟨b, hb, h⟩ := ih a ha hc
      exact ⟨b, List.mem_cons_of_mem _ hb, h⟩
  | comment _ h0 _ _ ih =>
    intro a ha hc
    rcases List.mem_cons.1 ha with rfl | ha
    · exact absurd h0 hc.comment
    · obtain ⟨b, hb, h⟩ := ih a ha hc
      exact ⟨b, List.mem_cons_of_mem _ hb, h⟩
  | @lineno x y seg0 seg1 l0 l1 _ _ hl _ ih =>
    intro a ha hc
    rw [List.cons_append, List.mem_cons, List.mem_append] at ha
    rcases ha with rfl | ha | ha
    · obtain ⟨fn, reg, init, last, hm, he, _⟩ := hl.call
      exact absurd (List.mem_map.2 ⟨_, hm, he.symm⟩) hc.lineno
    · obtain ⟨b, hb, h⟩ := forall₂_left hl.same ha
      exact ⟨b, by simp [hb], h⟩
    · obtain ⟨b, hb, h⟩ := ih a ha hc
      exact ⟨b, by simp [hb], h⟩
  | @bug x y l0 l1 _ _ hb _ ih =>
    intro a ha hc
    rcases List.mem_cons.1 ha with rfl | ha
    · have := hc.bug
      unfold BugLine at hb
      split at hb <;> rename_i e <;> rw [e] at this
      · exact absurd hb.1 this
      · exact absurd hb.1 this
    · obtain ⟨b, hb, h⟩ := ih a ha hc
      exact ⟨b, List.mem_cons_of_mem _ hb, h⟩
  | path h => rw [ht] at h; cases h
  | descriptor h => rw [ht] at h; cases h

theorem SameCode.statement1 {c : CmpSpec} {l0 l1 : List Ln} (hs : SameCode c l0 l1) (ht : c.ty = .func) :
    ∀ b ∈ l1, Compared c.os b → ∃ a ∈ l0, c.sameTokens a.text b.text := by
  induction hs with
  | nil => intro a ha; cases ha
  | skip1 hi _ ih =>
    intro a ha hc
    rcases List.mem_cons.1 ha with rfl | ha
    · exact absurd hi hc.code
    · exact ih a ha hc
  | skip0 hi _ ih =>
    intro a ha hc
    obtain ⟨b, hb, h⟩ := ih a ha hc
    exact ⟨b, List.mem_cons_of_mem _ hb, h⟩
  | line _ he _ ih =>
    intro a ha hc
    rcases List.mem_cons.1 ha with rfl | ha
    · exact ⟨_, List.mem_cons_self, he⟩
    · obtain ⟨b, hb, h⟩ := ih a ha hc
      exact ⟨b, List.mem_cons_of_mem _ hb, h⟩
  | comment _ _ h0 _ ih =>
    intro a ha hc
    rcases List.mem_cons.1 ha with rfl | ha
    · exact absurd h0 hc.comment
    · obtain ⟨b, hb, h⟩ := ih a ha hc
      exact ⟨b, List.mem_cons_of_mem _ hb, h⟩
  | @lineno x y seg0 seg1 l0 l1 _ _ hl _ ih =>
    intro a ha hc
    rw [List.cons_append, List.mem_cons, List.mem_append] at ha
    rcases ha with rfl | ha | ha
    · obtain ⟨fn, reg, init, last, hm, _, he, _⟩ := hl.call
      exact absurd (List.mem_map.2 ⟨_, hm, he.symm⟩) hc.lineno
    · obtain ⟨b, hb, h⟩ := forall₂_right hl.same ha
      exact ⟨b, by simp [hb], h⟩
    · obtain ⟨b, hb, h⟩ := ih a ha hc
      exact ⟨b, by simp [hb], h⟩
  | @bug x y l0 l1 _ _ hb _ ih =>
    intro a ha hc
    rcases List.mem_cons.1 ha with rfl | ha
    · have := hc.bug
      unfold BugLine at hb
      split at hb <;> rename_i e <;> rw [e] at this
      · exact absurd hb.2 this
      · exact absurd hb.2.1 this
    · obtain ⟨b, hb, h⟩ := ih a ha hc
      exact ⟨b, List.mem_cons_of_mem _ hb, h⟩
  | path h => rw [ht] at h; cases h
  | descriptor h => rw [ht] at h; cases h

/-- C46: a function is replaced if one of its compared statements has no counterpart in the other file. -/
theorem C46_statement_partial (h0 : i0.IsText) (h1 : i1.IsText) (hL : loadBoth i0 i1 = some L) (hn : L.f0.Named)
    (h : gensrc o i0 i1 = some out) {b0 b1 : GBlock} (hb0 : b0 ∈ L.f0.bs) (ht : b0.ty = .func) (hau : b0.auto = false)
    (hb1 : b1 ∈ L.f1.bs) (hnm : b1.name.text = b0.name.text) (hi : ignoredSym o L.f1.basename b1.human .func = false)
    (hu : inSyms L.f1.basename b1.human o.unlinkSyms = false)
    (hd : (∃ x ∈ L.f0.lines b0, Compared o.os x ∧ ∀ y ∈ L.f1.lines b1, ∀ P, Matching L P →
        ¬ List.Forall₂ (fun s t => Alike L P s.text t.text) (tokens (some x.text)) (tokens (some y.text))) ∨
      (∃ y ∈ L.f1.lines b1, Compared o.os y ∧ ∀ x ∈ L.f0.lines b0, ∀ P, Matching L P →
        ¬ List.Forall₂ (fun s t => Alike L P s.text t.text) (tokens (some x.text)) (tokens (some y.text)))) :
    ∃ r, Replaced o L r out b0 b1 := by
  refine C46_changed_replaced_partial h0 h1 hL hn h hb0 ht hau hb1 hnm hi hu fun P hP hs => ?_
  rcases hd with ⟨x, hx, hc, hall⟩ | ⟨y, hy, hc, hall⟩
  · obtain ⟨y, hy, e⟩ := SameCode.statement0 hs ht x hx hc
    exact hall y hy P hP e
  · obtain ⟨x, hx, e⟩ := SameCode.statement1 hs ht y hy hc
    exact hall x hx P hP e

theorem Alike.eq0 {P : Corresp} {a b : List Byte} (h : Alike L P a b) (ha : a ∉ L.f0.symbols) : a = b := by
  have : ∀ n, ¬ Corr L P a n := by
    rintro n ⟨b0, hb0, b1, _, _, ⟨e, _⟩ | ⟨i, l0, l1, hl, _, e, _⟩⟩
    · exact ha (List.mem_flatMap.2 ⟨b0, hb0, by simp [e]⟩)
    · exact ha (List.mem_flatMap.2 ⟨b0, hb0, List.mem_cons_of_mem _ (List.mem_map.2 ⟨l0, List.mem_of_getElem? hl, e.symm⟩)⟩)
  rcases h with h | h | ⟨n, h, _⟩
  · exact h
  · exact absurd h (this b)
  · exact absurd h (this n)

theorem Alike.eq1 {P : Corresp} {a b : List Byte} (h : Alike L P a b) (hb : b ∉ L.f1.symbols) : a = b := by
  have : ∀ n, ¬ Corr L P n b := by
    rintro n ⟨b0, _, b1, hb1, _, ⟨_, e⟩ | ⟨i, l0, l1, _, hl, _, e⟩⟩
    · exact hb (List.mem_flatMap.2 ⟨b1, hb1, by simp [e]⟩)
    · exact hb (List.mem_flatMap.2 ⟨b1, hb1, List.mem_cons_of_mem _ (List.mem_map.2 ⟨l1, List.mem_of_getElem? hl, e.symm⟩)⟩)
  rcases h with h | h | ⟨n, _, h⟩
  · exact h
  · exact absurd h (this a)
  · exact absurd h (this n)

/-- C46: a function is replaced if a compared statement of it contains a token that is no symbol of its file and does not
occur in the function in the other file: a new instruction, a changed constant, a call of another external function. -/
theorem C46_token_partial (h0 : i0.IsText) (h1 : i1.IsText) (hL : loadBoth i0 i1 = some L) (hn : L.f0.Named)
    (h : gensrc o i0 i1 = some out) {b0 b1 : GBlock} (hb0 : b0 ∈ L.f0.bs) (ht : b0.ty = .func) (hau : b0.auto = false)
    (hb1 : b1 ∈ L.f1.bs) (hnm : b1.name.text = b0.name.text) (hi : ignoredSym o L.f1.basename b1.human .func = false)
    (hu : inSyms L.f1.basename b1.human o.unlinkSyms = false) {t : List Byte}
    (hd : (t ∉ L.f0.symbols ∧ (∃ x ∈ L.f0.lines b0, Compared o.os x ∧ HasToken x t) ∧ ∀ y ∈ L.f1.lines b1, ¬ HasToken y t) ∨
      (t ∉ L.f1.symbols ∧ (∃ y ∈ L.f1.lines b1, Compared o.os y ∧ HasToken y t) ∧ ∀ x ∈ L.f0.lines b0, ¬ HasToken x t)) :
    ∃ r, Replaced o L r out b0 b1 := by
  refine C46_statement_partial h0 h1 hL hn h hb0 ht hau hb1 hnm hi hu ?_
  rcases hd with ⟨hs, ⟨x, hx, hc, hxt⟩, hall⟩ | ⟨hs, ⟨y, hy, hc, hyt⟩, hall⟩
  · refine Or.inl ⟨x, hx, hc, fun y hy P _ hf => ?_⟩
    obtain ⟨k, hk, rfl⟩ := List.mem_map.1 hxt
    obtain ⟨m, hm, e⟩ := forall₂_left hf hk
    exact hall y hy (List.mem_map.2 ⟨m, hm, (e.eq0 hs).symm⟩)
  · refine Or.inr ⟨y, hy, hc, fun x hx P _ hf => ?_⟩
    obtain ⟨k, hk, rfl⟩ := List.mem_map.1 hyt
    obtain ⟨m, hm, e⟩ := forall₂_right hf hk
    exact hall x hx (List.mem_map.2 ⟨m, hm, e.eq1 hs⟩)

/-- C46: every function and every variable of the new file is the same as one of the old file, or listed in the options, or
written as a replacement or as new code or data.  Its declarations are written, or are in the old file, too.  All its other
statements are written in file order, and the ones of the old file are the same as the first of them. -/
theorem C46_nothing_lost_partial (h0 : i0.IsText) (h1 : i1.IsText) (hL : loadBoth i0 i1 = some L) (hn : L.f0.Named)
    (h : gensrc o i0 i1 = some out) : ∃ P r r', Matching L P ∧ Justified L P r ∧
      (∀ b1 ∈ L.f1.bs, b1.ty = .func ∨ b1.ty = .var →
        (∃ b0 ∈ L.f0.bs, P b0.start = some b1.start ∧ (SameBlocks o L P b0 b1 ∨ Listed o L b0 b1 ∨ Replaced o L r out b0 b1 ∨
          (inSyms L.f1.basename b1.human o.unlinkSyms = true ∧ Added o L r' out b1))) ∨
        (b1.ty = .func ∧ Added o L r out b1) ∨ (b1.ty = .var ∧ AddedData L r out b1)) ∧
      (∀ b1 ∈ L.f1.bs, b1.ty = .attr → (∃ pre post, out = pre ++ attrLines (L.f1.withRen r') true b1 ++ post) ∨
        (∃ b0 ∈ L.f0.bs, b0.ty = .attr ∧ b0.name.text = b1.name.text) ∨ ∃ b0 ∈ L.f0.bs, P b0.start = some b1.start) ∧
      (L.f1.others.flatMap (verbatim L.f1 true)).Sublist out ∧
      ∃ x y, L.f1.others.flatMap L.f1.lines = x ++ y ∧ SameStatements (L.f0.others.flatMap L.f0.lines) x := by
  obtain ⟨a, s, hr⟩ := gensrc_run h0 h1 hL hn h
  obtain ⟨r2, hul, hat, hot⟩ := hr.rest
  refine ⟨a.P0, a.r1, r2, hr.an.inv.mat, hr.justified, fun b1 hb1 ht => ?_, hat, hot, hr.oldOthers⟩
  cases hp : a.P1 b1.start with
  | none =>
    right
    rcases ht with ht | ht
    · exact Or.inl ⟨ht, hr.added hb1 ht hp⟩
    · exact Or.inr ⟨ht, hr.addedData hb1 ht hp⟩
  | some p =>
    left
    obtain ⟨b0, hb0, rfl, hp0⟩ := hr.an.inv.sym b1 hb1 p hp
    refine ⟨b0, hb0, hp0, ?_⟩
    rcases (hr.notOther hb0 hb1 hp0).1 with ht0 | ht0
    · cases hi : a.I b1.start with
      | true =>
        obtain ⟨_, c0, hc0, e3, hs⟩ := hr.an.ign b1 hb1 hi
        rw [hp] at e3
        have : b0 = c0 := start_inj hr.k0.order.starts hb0 hc0 (Option.some.inj e3)
        subst this
        rcases hs with hs | hs
        · exact Or.inr (Or.inl (Or.inl hs))
        · exact Or.inl hs
      | false =>
        cases hu : a.U b1.start with
        | true =>
          obtain ⟨ht1, _, hs⟩ := hr.an.unl b1 hb1 hu
          exact Or.inr (Or.inr (Or.inr ⟨hs, hul b1 hb1 ht1 hu⟩))
        | false => exact Or.inr (Or.inr (Or.inl (hr.replaced hb0 ht0 hb1 hp0 hp hi hu)))
    · rcases hr.an.vars b0 hb0 ht0 b1 hb1 hp0 with hs | hs
      · exact Or.inr (Or.inl (Or.inr ⟨ht0, hs⟩))
      · exact Or.inl hs

/-- C46: the records are numbered one after the other; each is for a block of the new file, and its original, if it has one,
is the function of the old file that corresponds to this block. -/
theorem C46_records (h0 : i0.IsText) (h1 : i1.IsText) (hL : loadBoth i0 i1 = some L) (hn : L.f0.Named)
    (h : gensrc o i0 i1 = some out) : (recordsOf out).map (·.nr) = List.range' 1 (recordsOf out).length ∧
      ∃ P, Matching L P ∧ ∀ r ∈ recordsOf out, ∃ b1 ∈ L.f1.bs, r.name = b1.name.text ∧
        (r.target = none ∨ ∃ b0 ∈ L.f0.bs, P b0.start = some b1.start ∧ r.target = some b0.name.text) := by
  obtain ⟨a, s, hr⟩ := gensrc_run h0 h1 hL hn h
  refine ⟨hr.wr.nrs, a.P0, hr.an.inv.mat, fun r hm => ?_⟩
  obtain ⟨b1, q1, q2, q3, _⟩ := hr.records r hm
  exact ⟨b1, q1, q2, q3⟩

/-- C69: the contents of data never change.  Every variable of the old file is in the new file with the same contents, under
the same name if the name was not made by the compiler, unless the options ask to ignore it; or its name is one of those that
compilers make for strings. -/
theorem C69_data (h0 : i0.IsText) (h1 : i1.IsText) (hL : loadBoth i0 i1 = some L) (hn : L.f0.Named)
    (h : gensrc o i0 i1 = some out) : ∃ P, Matching L P ∧ ∀ b0 ∈ L.f0.bs, b0.ty = .var →
      compilerName b0.name.text = true ∨ ∃ b1 ∈ L.f1.bs, P b0.start = some b1.start ∧
        (ignoredSym o L.f1.basename b0.human .var = true ∨ SameBlocks o L P b0 b1) := by
  obtain ⟨a, s, hr⟩ := gensrc_run h0 h1 hL hn h
  refine ⟨a.P0, hr.an.inv.mat, fun b0 hb0 ht => ?_⟩
  cases hp : a.P0 b0.start with
  | none =>
    left
    rw [← mayVanish_eq b0 (hr.k0.ok b0 hb0).1]
    exact hr.an.kept b0 hb0 ht hp
  | some q =>
    right
    obtain ⟨b1, hb1, rfl, _⟩ := hr.an.inv.mat b0 hb0 q hp
    exact ⟨b1, hb1, rfl, hr.an.vars b0 hb0 ht b1 hb1 hp⟩

end

/-! ### Concrete cases -/

set_option maxRecDepth 100000

end Target

section X86

attribute [local instance] x86Asm

def exOpts : GenOpts := ⟨.rhel6, false, [], [], [], none, false, false, fun _ => false⟩

def exIn (l : List String) : GenInput := ⟨lit "a.s", lit "/tmp/", l.map lit⟩

/-- The function `f` returns 1, the function `g` the variable `x`. -/
def exOld : GenInput := exIn ["\t.text", "\t.globl\tf", "\t.type\tf, @function", "f:", "\tmovl\t$1, %eax", "\tret", "\t.size\tf, .-f",
  "\t.globl\tg", "\t.type\tg, @function", "g:", "\tmovl\tx(%rip), %eax", "\tret", "\t.size\tg, .-g",
  "\t.globl\tx", "\t.data", "\t.type\tx, @object", "\t.size\tx, 4", "x:", "\t.long\t7", "\t.ident\t\"GCC\""]

/-- `f` returns 2. -/
def exNew : GenInput := exIn ["\t.text", "\t.globl\tf", "\t.type\tf, @function", "f:", "\tmovl\t$2, %eax", "\tret", "\t.size\tf, .-f",
  "\t.globl\tg", "\t.type\tg, @function", "g:", "\tmovl\tx(%rip), %eax", "\tret", "\t.size\tg, .-g",
  "\t.globl\tx", "\t.data", "\t.type\tx, @object", "\t.size\tx, 4", "x:", "\t.long\t7", "\t.ident\t\"GCC\""]

def exL : GSt := (loadBoth exOld exNew).get (by decide +kernel)

def exOut : List Out := (gensrc exOpts exOld exNew).get (by decide +kernel)

theorem exL_eq : loadBoth exOld exNew = some exL := by simp [exL]

theorem exOut_eq : gensrc exOpts exOld exNew = some exOut := by simp [exOut]

theorem exText : exOld.IsText ∧ exNew.IsText := by unfold GenInput.IsText; decide +kernel

theorem exNamed : exL.f0.Named := by unfold GFile.Named; decide +kernel

/-- The functions `f` of the two files. -/
def exF0 : GBlock := (exL.f0.bs[0]?).get (by decide +kernel)

def exF1 : GBlock := (exL.f1.bs[0]?).get (by decide +kernel)

/-- The statement with the constant. -/
def exMov : Ln := (exL.f0.lines exF0)[4]?.get (by decide +kernel)

example : exMov.text = lit "\tmovl\t$1, %eax" := by decide +kernel

/-- `C46_token_partial` applies to `f`: the constant 1 is not in the new function. -/
theorem exReplaced : ∃ r, Replaced exOpts exL r exOut exF0 exF1 := by
  refine C46_token_partial (t := lit "1") exText.1 exText.2 exL_eq exNamed exOut_eq (b0 := exF0) (b1 := exF1)
    (by decide +kernel) (by decide +kernel) (by decide +kernel) (by decide +kernel) (by decide +kernel) (by decide +kernel)
    (by decide +kernel) (Or.inl ⟨by decide +kernel, ⟨exMov, by decide +kernel, ⟨?_, by decide +kernel, by decide +kernel, ?_⟩, ?_⟩, ?_⟩)
  · unfold Irrelevant; decide +kernel
  · show exMov.sect.name ≠ _; decide +kernel
  · unfold HasToken; decide +kernel
  · unfold HasToken; decide +kernel

/-- There is no other record. -/
example : recordsOf exOut = [⟨1, lit "f", lit "f.kpatch", some (lit "f")⟩] := by decide +kernel

/-- The variable `x`. -/
def exX0 : GBlock := (exL.f0.bs[2]?).get (by decide +kernel)

theorem exX0_vanish : compilerName exX0.name.text = false ∧ ignoredSym exOpts exL.f1.basename exX0.human .var = false := by decide +kernel

/-- `C69_data` for the variable `x`. -/
example : ∃ P, Matching exL P ∧ ∃ b1 ∈ exL.f1.bs, P exX0.start = some b1.start ∧ SameBlocks exOpts exL P exX0 b1 := by
  obtain ⟨P, hP, hall⟩ := C69_data exText.1 exText.2 exL_eq exNamed exOut_eq
  rcases hall exX0 (by decide +kernel) (by decide +kernel) with h | ⟨b1, hb1, h, h' | h'⟩
  · rw [exX0_vanish.1] at h; cases h
  · rw [exX0_vanish.2] at h'; cases h'
  · exact ⟨P, hP, b1, hb1, h, h'⟩

/-! ### Violations -/

/-- `f` reads the static variable `a.0` of 4 bytes, `g` the static variable `a.1` of 8 bytes. -/
def exStatic0 : GenInput := exIn ["\t.text", "\t.local\ta.0", "\t.comm\ta.0,4,4", "\t.local\ta.1", "\t.comm\ta.1,8,8",
  "\t.globl\tf", "\t.type\tf, @function", "f:", "\tmovl\ta.0(%rip), %eax", "\tret", "\t.size\tf, .-f",
  "\t.globl\tg", "\t.type\tg, @function", "g:", "\tmovl\ta.1(%rip), %eax", "\tret", "\t.size\tg, .-g", "\t.ident\t\"GCC\""]

/-- The variables are now called `a.1` and `a.2`, and `f` reads the one of 8 bytes. -/
def exStatic1 : GenInput := exIn ["\t.text", "\t.local\ta.1", "\t.comm\ta.1,4,4", "\t.local\ta.2", "\t.comm\ta.2,8,8",
  "\t.globl\tf", "\t.type\tf, @function", "f:", "\tmovl\ta.2(%rip), %eax", "\tret", "\t.size\tf, .-f",
  "\t.globl\tg", "\t.type\tg, @function", "g:", "\tmovl\ta.2(%rip), %eax", "\taddl\t$1, %eax", "\tret", "\t.size\tg, .-g",
  "\t.ident\t\"GCC\""]

/-- C46 is violated: `f` reads another variable than before, and is not replaced.  The number of `a.0` grows by one in the
new file, so that `a.0` is renamed to `a.1`, and the old `a.0` and the new `a.2`, renamed to `a.1`, are taken for the same. -/
theorem C46_violated_static : ∃ out, gensrc exOpts exStatic0 exStatic1 = some out ∧
    recordsOf out = [⟨1, lit "g", lit "g.kpatch", some (lit "g")⟩] :=
  ⟨(gensrc exOpts exStatic0 exStatic1).getD [], by decide +kernel⟩

/-- The weak function `foo` is called before it is defined. -/
def exWeak0 : GenInput := exIn ["\t.text", "\t.globl\tbar", "\t.type\tbar, @function", "bar:", "\tcall\tfoo", "\tret", "\t.size\tbar, .-bar",
  "\t.weak\tfoo", "\t.type\tfoo, @function", "foo:", "\tmovl\t$1, %eax", "\tret", "\t.size\tfoo, .-foo", "\t.ident\t\"GCC\""]

def exWeak1 : GenInput := exIn ["\t.text", "\t.globl\tbar", "\t.type\tbar, @function", "bar:", "\tcall\tfoo", "\tret", "\t.size\tbar, .-bar",
  "\t.weak\tfoo", "\t.type\tfoo, @function", "foo:", "\tmovl\t$2, %eax", "\tret", "\t.size\tfoo, .-foo", "\t.ident\t\"GCC\""]

/-- The texts of the lines of the old (`false`) or of the new (`true`) file in the output. -/
def lineTexts (new : Bool) (out : List Out) : List (List Byte) :=
  (linesOf new out).filterMap fun x => match x with | .line _ _ s _ => some s | _ => none

/-- C46 is violated: the declaration of the old function `foo` as weak is lost, it now is for the symbol `foo.kpatch`. -/
theorem C46_violated_weak : ∃ out, gensrc exOpts exWeak0 exWeak1 = some out ∧ lit "\t.weak\tfoo" ∈ exWeak0.lines ∧
    lit "\t.weak\tfoo" ∉ lineTexts false out ∧ lit "\t.weak\tfoo" ∉ lineTexts true out ∧
    lit "\t.weak\tfoo.kpatch" ∈ lineTexts false out :=
  ⟨(gensrc exOpts exWeak0 exWeak1).getD [], by decide +kernel⟩

end X86

section A64

attribute [local instance] a64Asm

/-- A file for AArch64: the function `f` with its cold part, which loads the constant `c`. -/
def exA64 (c : String) : GenInput := exIn ["\t.text", "\t.globl\tf", "\t.type\tf, %function", "f:", "\tcbz\tx0, .L2", "\tret",
  ".L2:", "\tb\tf.cold", "\t.section\t.text.unlikely", "\t.type\tf.cold, %function", "f.cold:", "\tmov\tx0, " ++ c, "\tret",
  "\t.text", "\t.size\tf, .-f", "\t.section\t.text.unlikely", "\t.size\tf.cold, .-f.cold", "\t.ident\t\"GCC\" // a; b"]

/-- A change in the cold part replaces the function on AArch64 too. -/
example : (gensrc exOpts (exA64 "1") (exA64 "2")).map recordsOf = some [⟨1, lit "f", lit "f.kpatch", some (lit "f")⟩] ∧
    (gensrc exOpts (exA64 "1") (exA64 "1")).map recordsOf = some [] := by decide +kernel

end A64

section RiscV

attribute [local instance] riscvAsm

/-- On RISC-V `.ascii` is not known as data: it is not in the block of the variable, but a change of it is refused. -/
example : gensrc exOpts (exIn ["\t.data", "\t.type\ta, @object", "\t.size\ta, 3", "a:", "\t.ascii\t\"abc\""])
      (exIn ["\t.data", "\t.type\ta, @object", "\t.size\ta, 3", "a:", "\t.ascii\t\"abd\""]) = none ∧
    (gensrc exOpts (exIn ["\t.data", "\t.type\ta, @object", "\t.size\ta, 3", "a:", "\t.ascii\t\"abc\""])
      (exIn ["\t.data", "\t.type\ta, @object", "\t.size\ta, 3", "a:", "\t.ascii\t\"abc\""])).map recordsOf = some [] := by
  decide +kernel

end RiscV

end Verif
