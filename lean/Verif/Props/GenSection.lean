import Verif.Proof.GenPatch
import Verif.Props.Sections
import Verif.Props.GenPatch
/-
C88: where the code of a patch goes.
-/
namespace Verif

section Target
variable [AsmTarget]

/-- What the division into blocks leaves as it is. -/
def lnKey (l : Ln) : Dir × SectInfo := (l.dir, l.sect)

theorem funcScan_keys {nm : Kpstr} : ∀ {ls : List Ln} {cnt : Int} {r : FuncScan}, funcScan nm cnt ls = some r →
    r.seen.map lnKey = (ls.take r.seen.length).map lnKey
  | [], cnt, r, h => by cases h; rfl
  | [_], cnt, r, h => by cases h; rfl
  | l :: l2 :: t, cnt, r, h => by
    unfold funcScan at h
    dsimp only at h
    generalize hl' : (if l.dir = .kpflags then ({ l with text := [] } : Ln) else l) = l' at h
    have hk : lnKey l' = lnKey l := by rw [← hl']; split <;> rfl
    split at h
    · cases h
    · generalize (if _ = true then cnt + 1 else cnt) = c at h
      split at h
      · cases h
        simp only [List.map_cons, List.map_nil, List.length_cons, List.length_nil, List.take_succ_cons, List.take_zero, hk]
      · rw [Option.map_eq_some_iff] at h
        obtain ⟨x, h1, rfl⟩ := h
        have := funcScan_keys h1
        simp only [List.map_cons, List.length_cons, List.take_succ_cons, hk, this]

theorem cblockStep_keys {st st' : CbState} {l : Ln} (h : cblockStep st l = some st') : st'.ls.map lnKey = st.ls.map lnKey := by
  unfold cblockStep at h
  split at h
  · cases h; rfl
  split at h
  · cases h
  · unfold initFuncBlock at h
    obtain ⟨r, h1, h2⟩ := Option.bind_eq_some_iff.1 h
    rw [Option.map_eq_some_iff] at h2
    obtain ⟨bs, _, rfl⟩ := h2
    have hr := funcScan_keys h1
    simp only [List.map_append, hr]
    rw [← List.map_append, ← List.map_append, List.append_assoc, ← List.drop_drop, List.take_append_drop, List.take_append_drop]
  split at h
  · cases h
  · unfold initVarBlock at h
    obtain ⟨r, h1, h2⟩ := Option.bind_eq_some_iff.1 h
    rw [Option.map_eq_some_iff] at h2
    obtain ⟨bs, _, rfl⟩ := h2
    rfl
  split at h
  · unfold initSetBlock at h
    rw [Option.map_eq_some_iff] at h
    obtain ⟨bs, _, rfl⟩ := h
    rfl
  split at h
  · unfold initAttrBlock at h
    dsimp only at h
    split at h
    · cases h; rfl
    · rw [Option.map_eq_some_iff] at h
      obtain ⟨bs, _, rfl⟩ := h
      rfl
  · unfold initOtherBlock at h
    obtain ⟨⟨n, fl⟩, h1, h2⟩ := Option.bind_eq_some_iff.1 h
    dsimp only at h2
    split at h2
    · cases h2; rfl
    · rw [Option.map_eq_some_iff] at h2
      obtain ⟨bs, _, rfl⟩ := h2
      rfl
    · obtain ⟨m, _, h2⟩ := Option.bind_eq_some_iff.1 h2
      rw [Option.map_eq_some_iff] at h2
      obtain ⟨bs, _, rfl⟩ := h2
      rfl

theorem cblocksLoop_keys : ∀ (n : Nat) {st st' : CbState}, cblocksLoop n st = some st' → st'.ls.map lnKey = st.ls.map lnKey
  | 0, st, st', h => by cases h; rfl
  | n + 1, st, st', h => by
    unfold cblocksLoop at h
    split at h
    · cases h; rfl
    · obtain ⟨st1, h1, h2⟩ := Option.bind_eq_some_iff.1 h
      exact (cblocksLoop_keys n h2).trans (cblockStep_keys h1)

theorem recorded_keys {a b : List Ln} (e : a.map lnKey = b.map lnKey) (h : SectionsRecorded b) : SectionsRecorded a := by
  have get : ∀ {i : Nat} {l : Ln}, a[i]? = some l → ∃ l', b[i]? = some l' ∧ lnKey l = lnKey l' := by
    intro i l hl
    have := congrArg (·[i]?) e
    simp only [List.getElem?_map, hl, Option.map_some] at this
    cases hb : b[i]? with
    | none => rw [hb] at this; cases this
    | some l' => rw [hb] at this; exact ⟨l', rfl, Option.some.inj this⟩
  intro i l l' h1 h2 h3
  obtain ⟨m, hm, e1⟩ := get h1
  obtain ⟨m', hm', e2⟩ := get h2
  unfold lnKey at e1 e2
  injection e1 with a1 a2
  injection e2 with b1 b2
  rw [a2, b2]
  exact h i m m' hm hm' (b1 ▸ h3)

/-- A line that changes the section has a directive that says so, or stays in its section. -/
theorem parseSection_change {known cur known' : List SectInfo} {d : Dir} {l : List Byte} {s : SectInfo}
    (h : parseSection known cur d l = .change s known') (hd : switchDir d = false) : cur.head? = some s := by
  unfold parseSection at h
  cases d with
  | text | data | bss | pushsection | sect | popsection | previous => exact absurd hd (by decide)
  | subsection =>
    dsimp only at h
    unfold dupSection at h
    split at h
    · cases h
    · rename_i e
      cases h
      exact e
  | _ => cases h

theorem sectionLoop_recorded : ∀ (ls : List (List Byte)) (known cur r K : List SectInfo) (c : SectInfo) (l0 : Ln),
    sectionLoop known cur ls = some (r, K) → cur.head? = some c → l0.sect = c →
    SectionsRecorded (l0 :: (ls.zip r).map fun x => ⟨x.1, parseCtype x.1, x.2⟩)
  | [], known, cur, r, K, c, l0, h, hc, h0 => by
    cases h
    intro i l l' h1 h2
    simp at h2
  | s :: ls, known, cur, r, K, c, l0, h, hc, h0 => by
    rw [sectionLoop] at h
    have step : ∀ (x : SectInfo) (r' K' known' cur' : List SectInfo), sectionLoop known' cur' ls = some (r', K') →
        cur'.head? = some x → (switchDir (parseCtype s) = false → x = c) →
        SectionsRecorded (l0 :: ((s :: ls).zip (x :: r')).map fun x => ⟨x.1, parseCtype x.1, x.2⟩) := by
      intro x r' K' known' cur' h1 hx hsw
      have ih := sectionLoop_recorded ls known' cur' r' K' x ⟨s, parseCtype s, x⟩ h1 hx rfl
      intro i l l' g1 g2 g3
      cases i with
      | zero =>
        simp only [List.getElem?_cons_zero, Option.some.injEq, List.zip_cons_cons, List.map_cons, List.getElem?_cons_succ] at g1 g2
        subst g1 g2
        exact (hsw g3).trans h0.symm
      | succ i => exact ih i l l' g1 g2 g3
    split at h
    · cases h
    · obtain ⟨⟨r', K'⟩, h1, h2⟩ := Option.bind_eq_some_iff.1 h
      rw [hc] at h2
      cases h2
      exact step c _ _ _ _ h1 hc fun _ => rfl
    · rename_i x known' hp
      rw [Option.map_eq_some_iff] at h
      obtain ⟨⟨r', K'⟩, h1, h2⟩ := h
      cases h2
      refine step x _ _ _ _ h1 rfl fun hsw => ?_
      have := parseSection_change hp hsw
      rw [hc] at this
      exact (Option.some.inj this).symm

theorem loadGFile_recorded {known known' : List SectInfo} {i : GenInput} {f : GFile} (h : loadGFile known i = some (f, known')) :
    SectionsRecorded f.ls := by
  unfold loadGFile at h
  obtain ⟨st, h1, h⟩ := Option.bind_eq_some_iff.1 h
  obtain ⟨⟨ls, k⟩, h2, h⟩ := Option.bind_eq_some_iff.1 h
  rw [Option.map_eq_some_iff] at h
  obtain ⟨cb, h3, h⟩ := h
  cases h
  refine recorded_keys (cblocksLoop_keys _ h3) ?_
  show SectionsRecorded ls
  unfold makeLines at h2
  rw [Option.map_eq_some_iff] at h2
  obtain ⟨⟨r, K⟩, h2, e⟩ := h2
  cases e
  generalize st.map (·.1) = stmts at h2
  unfold initSections at h2
  cases stmts with
  | nil =>
    intro i l l' g1 g2 g3
    simp at g1
  | cons s ss =>
    dsimp only at h2
    obtain ⟨t, e1, h2⟩ := Option.bind_eq_some_iff.1 h2
    rw [Option.map_eq_some_iff] at h2
    obtain ⟨⟨r', K'⟩, e2, h2⟩ := h2
    cases h2
    exact sectionLoop_recorded ss known [t] r' K' t ⟨s, parseCtype s, t⟩ e2 rfl rfl

/-- Where the statements of the functions and variables of the new file are in the output. -/
theorem Run.codeOf {o : GenOpts} {L s : GSt} {out : List Out} {a : AnSt} (h : Run o L out a s) {i : Nat} {t sep : List Byte}
    (hm : Out.line true i t sep ∈ out) : ∃ b1 ∈ L.f1.bs, b1.start ≤ i ∧ i < b1.stop ∧ (b1.ty = .func ∨ b1.ty = .var →
      ∃ pre code post r fl, out = pre ++ code ++ post ∧ Out.line true i t sep ∈ code ∧ IsCode (L.f1.withRen r) fl b1 code) := by
  have hm : Out.line true i t sep ∈ linesOf true out := List.mem_filter.mpr ⟨hm, rfl⟩
  obtain ⟨r2, hdr, olds, news, unl, att0, att1, oth, e, ehdr, ho, hnw, hu, ha0, ha1, hot⟩ := h.wr.pieces
  have other : ∀ b ∈ s.f1.bs, b.ty = .other → Out.line true i t sep ∈ verbatim s.f1 true b →
      ∃ b1 ∈ L.f1.bs, b1.start ≤ i ∧ i < b1.stop ∧ (b1.ty = .func ∨ b1.ty = .var →
      ∃ pre code post r fl, out = pre ++ code ++ post ∧ Out.line true i t sep ∈ code ∧ IsCode (L.f1.withRen r) fl b1 code) := by
    intro b hb ht hv
    obtain ⟨c, hc, hct, hci⟩ := (h.rest1.cover i).mp ⟨b, hb, ht, verbatim_line hv⟩
    obtain ⟨d, hd, rfl⟩ := dec_mem.mp hc
    have hct : d.ty = .other := hct
    exact ⟨d, hd, hci.1, hci.2, fun e => by rcases e with e | e <;> rw [hct] at e <;> cases e⟩
  have split : ∀ {xs : List (List Out)}, Out.line true i t sep ∈ linesOf true xs.flatten →
      ∃ x ∈ xs, Out.line true i t sep ∈ linesOf true x ∧ ∃ u v, xs.flatten = u ++ x ++ v := by
    intro xs hx
    rw [linesOf_flatten] at hx
    obtain ⟨y, hy, hr⟩ := List.mem_flatten.mp hx
    obtain ⟨x, hx, rfl⟩ := List.mem_map.mp hy
    obtain ⟨u, v, rfl⟩ := List.append_of_mem hx
    exact ⟨x, hx, hr, u.flatten, v.flatten, by simp⟩
  have code : ∀ (r : Renames) (b : GBlock), b ∈ s.f1.bs → b.ty ≠ .other → ∀ x (u : Out) (v : List Out),
      (∃ c r', x = u :: (c ++ [.text [10#8], .info r']) ∧ Plain [u] ∧ IsCode (s.f1.withRen r) ⟨true, o.gotpcrel⟩ b c) →
      Out.line true i t sep ∈ linesOf true x → ∀ A B, out = A ++ x ++ B → ∃ b1 ∈ L.f1.bs, b1.start ≤ i ∧ i < b1.stop ∧ (b1.ty = .func ∨ b1.ty = .var →
      ∃ pre code post r fl, out = pre ++ code ++ post ∧ Out.line true i t sep ∈ code ∧ IsCode (L.f1.withRen r) fl b1 code) := by
    intro r b hb ht x u v hx hl A B eo
    obtain ⟨code, r', rfl, hp, hc⟩ := hx
    rw [show u :: (code ++ [.text [10#8], .info r']) = [u] ++ code ++ [.text [10#8], .info r'] by simp, linesOf_append,
      linesOf_append, hp.1 true] at hl
    have hl : Out.line true i t sep ∈ linesOf true code := by simpa [linesOf, Out.isLine] using hl
    obtain ⟨c, hcm, rfl⟩ := h.of1 hb ht
    have hr := hc.line hl
    exact ⟨c, hcm, hr.1, hr.2, fun _ => ⟨A ++ [u], code, [.text [10#8], .info r'] ++ B, r, _, by rw [eo]; simp, (List.mem_filter.1 hl).1,
      isCode_congr (f := L.f1.withRen r) (f' := s.f1.withRen r) (b := c) (b' := c.dec a.P1 a.I a.U) h.rest1.ls h.rest1.nums rfl rfl rfl hc⟩⟩
  have hm' := hm
  rw [e] at hm
  simp only [linesOf_append, List.mem_append] at hm
  rcases hm with (((((hm | hm) | hm) | hm) | hm) | hm) | hm
  · rw [ehdr] at hm
    cases hh : (s.f1.ofTy .other).head? with
    | none => rw [hh] at hm; cases hm
    | some b =>
      rw [hh] at hm
      simp only [Option.map_some, Option.getD_some] at hm
      have hb := mem_ofTy.mp (List.mem_of_head? hh)
      exact other b hb.1 hb.2 (List.mem_filter.mp hm).1
  · obtain ⟨x, hx, hm, u, v, ex⟩ := split hm
    obtain ⟨b, hb, hp⟩ := forall₂_right ho hx
    unfold OldPiece at hp
    split at hp
    · rename_i hty
      obtain ⟨pre, post, rfl, hpl, hp⟩ := hp
      rw [linesOf_append, linesOf_append, hpl.1, show linesOf true (verbatim s.f0 false b) = [] from linesOf_verbatim' s.f0 false b] at hm
      have hm : Out.line true i t sep ∈ linesOf true post := by simpa using hm
      split at hp
      · rw [hp] at hm; cases hm
      · rename_i b1 hb1
        split at hp
        · rw [hp] at hm; cases hm
        · rename_i hno
          obtain ⟨code, r', rfl, hc, hr'⟩ := hp
          rw [linesOf_append, linesOf_append] at hm
          have hline : Out.line true i t sep ∈ linesOf true code := by simpa [linesOf, Out.isLine] using hm
          obtain ⟨q, hq1, hq2⟩ := Option.bind_eq_some_iff.mp hb1
          obtain ⟨hm1, hs1⟩ := mem_of_at hq2
          obtain ⟨c0, hc0, rfl⟩ := h.of0 hb (by rw [hty]; decide)
          obtain ⟨c1, hc1, e1, _⟩ := h.an.inv.mat c0 hc0 q hq1
          have ht1 := (h.notOther hc0 hc1 (by rw [e1]; exact hq1)).2
          have : b1 = c1.dec a.P1 a.I a.U := start_inj h.ord1.starts hm1 (h.mem1 hc1 ht1) (hs1.trans e1.symm)
          subst this
          have hr := hc.line hline
          refine ⟨c1, hc1, hr.1, hr.2, fun _ => ?_⟩
          obtain ⟨A, B, eo⟩ : ∃ A B, out = A ++ code ++ B := by
            obtain ⟨A, B, e2⟩ : ∃ A B, pre ++ verbatim s.f0 false (c0.dec a.P0 noFlag noFlag) ++ ([.text (lit "\t.text\n"),
                .label ((c0.dec a.P0 noFlag noFlag).name.text ++ lit ".Lfe"), .text (lit "#---------- kpatch begin ---------\n")] ++ code ++
                [.text [10#8], .info r', .text (lit "#---------- kpatch end -----------\n")]) = A ++ code ++ B :=
              ⟨_, _, by rw [← List.append_assoc, ← List.append_assoc]⟩
            rw [e2] at ex
            rw [e, ex]
            exact ⟨hdr ++ (u ++ A), B ++ v ++ news.flatten ++ unl.flatten ++ att0.flatten ++ att1.flatten ++ oth.flatten, by
              simp only [List.append_assoc]⟩
          exact ⟨A, code, B, a.r1, _, eo, (List.mem_filter.1 hline).1, h.code1 hc⟩
    · obtain ⟨pre, rfl, hpl⟩ := hp
      rw [linesOf_append, hpl.1, show linesOf true (verbatim s.f0 false b) = [] from linesOf_verbatim' s.f0 false b] at hm
      cases hm
    · rw [hp] at hm; cases hm
  · obtain ⟨x, hx, hm, u, v, ex⟩ := split hm
    obtain ⟨b, hb, hp⟩ := forall₂_right hnw hx
    unfold NewPiece at hp
    split at hp
    · rw [hp] at hm; cases hm
    · rename_i hnp
      split at hp
      · rename_i hty
        obtain ⟨w, c, r', e1, e2, e3, e4⟩ := hp
        exact code s.f1.ren b hb (by rw [hty]; decide) x w [] ⟨c, r', e1, e2, e3⟩ hm (hdr ++ olds.flatten ++ u)
          (v ++ unl.flatten ++ att0.flatten ++ att1.flatten ++ oth.flatten) (by rw [e, ex]; simp)
      · rename_i hty
        obtain ⟨c, hcm, rfl⟩ := h.of1 hb (by rw [hty]; decide)
        have hr := hp.line hm
        exact ⟨c, hcm, hr.1, hr.2, fun _ => ⟨hdr ++ olds.flatten ++ u, x, v ++ unl.flatten ++ att0.flatten ++ att1.flatten ++ oth.flatten,
          a.r1, _, by rw [e, ex]; simp, (List.mem_filter.1 hm).1, h.code1 hp⟩⟩
      · rw [hp] at hm; cases hm
  · obtain ⟨x, hx, hm, u, v, ex⟩ := split hm
    obtain ⟨b, hb, hp⟩ := forall₂_right hu hx
    unfold UnlinkedPiece at hp
    have hb := mem_ofTy.mp hb
    split at hp
    · rename_i hun
      obtain ⟨w, c, r', e1, e2, e3, e4⟩ := hp
      exact code r2 b hb.1 (by rw [hb.2]; decide) x w [] ⟨c, r', e1, e2, e3⟩ hm (hdr ++ olds.flatten ++ news.flatten ++ u)
          (v ++ att0.flatten ++ att1.flatten ++ oth.flatten) (by rw [e, ex]; simp)
    · rw [hp] at hm; cases hm
  · obtain ⟨x, hx, hm, _⟩ := split hm
    obtain ⟨b, hb, rfl⟩ := forall₂_right ha0 hx
    rw [show true = !false from rfl, linesOf_attr'] at hm
    cases hm
  · obtain ⟨x, hx, hm, _⟩ := split hm
    obtain ⟨b, hb, hp⟩ := forall₂_right ha1 hx
    have hb := mem_ofTy.mp hb
    rcases hp with rfl | ⟨rfl, _⟩
    · obtain ⟨c, hcm, rfl⟩ := h.of1 hb.1 (by rw [hb.2]; decide)
      have hct : c.ty = .attr := hb.2
      have hr := attr_line (List.mem_filter.mp hm).1
      exact ⟨c, hcm, hr.1, hr.2, fun e => by rcases e with e | e <;> rw [hct] at e <;> cases e⟩
    · cases hm
  · obtain ⟨x, hx, hm, _⟩ := split hm
    obtain ⟨b, hb, hp⟩ := forall₂_right hot hx
    rcases hp with rfl | ⟨rfl, _⟩
    · have hb := mem_ofTy.mp hb
      exact other b hb.1 hb.2 (List.mem_filter.mp hm).1
    · cases hm

/-! ### Alignment -/

theorem alignRun_append (a b : List Out) (s : Bool) : alignRun s (a ++ b) = (alignRun s a).bind fun t => alignRun t b := by
  induction a generalizing s with
  | nil => rfl
  | cons o a ih =>
    cases o with
    | «section» p nm al =>
      simp only [List.cons_append, alignRun]
      split
      · exact ih _
      · rfl
    | _ => exact ih s

/-- Pieces that are not switches of the section. -/
def NoSwitch (x : List Out) : Prop := ∀ o ∈ x, ∀ p nm al, o ≠ .section p nm al

theorem alignRun_none {x : List Out} (h : NoSwitch x) (s : Bool) : alignRun s x = some s := by
  induction x with
  | nil => rfl
  | cons o x ih =>
    have := ih fun o ho => h o (List.mem_cons_of_mem _ ho)
    cases o with
    | «section» p nm al => exact absurd rfl (h _ (List.mem_cons_self ..) p nm al)
    | _ => exact this

structure AlignOk (g : GenSt) : Prop where
  run : alignRun false g.out = some g.dataInit
  sects : ∀ l ∈ g.s.f1.ls, l.sect.outname ≠ some dataPlace

theorem AlignOk.emit {g : GenSt} (h : AlignOk g) {x : List Out} (hx : NoSwitch x) : AlignOk (g.emit x) :=
  ⟨by show alignRun false (g.out ++ x) = some g.dataInit
      rw [alignRun_append, h.run]; exact alignRun_none hx _, h.sects⟩

theorem AlignOk.handled {g : GenSt} (h : AlignOk g) (n : Bool) (p : Nat) : AlignOk (g.handled n p) := by
  unfold GenSt.handled
  split <;> exact ⟨h.run, h.sects⟩

theorem AlignOk.handledOpt {g : GenSt} (h : AlignOk g) (n : Bool) (p : Option Nat) : AlignOk (g.handledOpt n p) := by
  unfold GenSt.handledOpt
  split
  · exact h.handled _ _
  · exact h

theorem AlignOk.change {g : GenSt} (h : AlignOk g) {s : SectInfo} (hs : s.outname ≠ some dataPlace) (p : Bool) :
    AlignOk (changeSection g s p) := by
  unfold changeSection
  cases ho : s.outname with
  | some n =>
    refine ⟨?_, h.sects⟩
    show alignRun false (g.out ++ [.section p n false]) = some g.dataInit
    rw [alignRun_append, h.run]
    have : n ≠ dataPlace := fun e => hs (by rw [ho, e])
    simp [alignRun, this]
  | none =>
    dsimp only
    split
    · refine ⟨?_, h.sects⟩
      show alignRun false (g.out ++ [.section p _ false]) = some g.dataInit
      rw [alignRun_append, h.run]
      have : lit ".kpatch.text,\"ax\",@progbits" ≠ dataPlace := by decide +kernel
      simp [alignRun, this]
    · refine ⟨?_, h.sects⟩
      show alignRun false (g.out ++ [.section p _ (!g.dataInit)]) = some true
      rw [alignRun_append, h.run]
      have : lit ".kpatch.data,\"aw\",@progbits" = dataPlace := rfl
      simp [alignRun, this]

theorem noSwitch_cons {o : Out} {x : List Out} (h : ∀ p nm al, o ≠ .section p nm al) (hx : NoSwitch x) : NoSwitch (o :: x) := by
  intro q hq
  rcases List.mem_cons.1 hq with rfl | hq
  · exact h
  · exact hx q hq

theorem noSwitch_append {x y : List Out} (hx : NoSwitch x) (hy : NoSwitch y) : NoSwitch (x ++ y) := by
  intro q hq
  rcases List.mem_append.1 hq with hq | hq
  · exact hx q hq
  · exact hy q hq

theorem noSwitch_nil : NoSwitch [] := by intro o ho; cases ho

theorem noSwitch_lines {f : GFile} {n : Bool} {fl : WFlags} {b : GBlock} {x : List Out} (h : writeBlock f n fl b = some x) : NoSwitch x := by
  intro o ho p nm al e
  subst e
  rw [← (mapM_some h).1] at ho
  obtain ⟨i, _, hi⟩ := List.mem_filterMap.1 ho
  obtain ⟨_, _, e⟩ := writeLine_some hi
  cases e

theorem AlignOk.comm {g g' : GenSt} (h : AlignOk g) {f : GFile} {ren : Bool} {s : List Byte} (hc : addComm g f ren s = some g') : AlignOk g' := by
  unfold addComm at hc
  rw [Option.map_eq_some_iff] at hc
  obtain ⟨⟨nm, sz, al⟩, _, rfl⟩ := hc
  refine (h.change (s := dataSection) (by decide) true).emit ?_
  refine noSwitch_append (noSwitch_append (noSwitch_append ?_ ?_) ?_) ?_
  · split
    · exact noSwitch_cons (by simp) noSwitch_nil
    · exact noSwitch_nil
  · exact noSwitch_cons (by simp) noSwitch_nil
  · split
    · exact noSwitch_cons (by simp) noSwitch_nil
    · exact noSwitch_nil
  · exact noSwitch_cons (by simp) noSwitch_nil

theorem AlignOk.line {g g' : GenSt} (h : AlignOk g) {fl : WFlags} {first i : Nat} (hg : genLine fl first g i = some g') : AlignOk g' := by
  unfold genLine at hg
  split at hg
  · cases hg
  rename_i l hl
  have hs := h.sects l (List.mem_of_getElem? hl)
  split at hg
  all_goals first
    | (cases hg; split; exact h; exact h.change hs _)
    | exact h.comm hg
    | skip
  rw [Option.map_eq_some_iff] at hg
  obtain ⟨o, h1, rfl⟩ := hg
  obtain ⟨s, _, rfl⟩ := writeLine_some h1
  exact h.emit (noSwitch_cons (by simp) noSwitch_nil)

theorem AlignOk.block {o : GenOpts} {fl : WFlags} {g g' : GenSt} {b : GBlock} (h : AlignOk g) (hg : genBlock o fl g b = some g') : AlignOk g' := by
  unfold genBlock at hg
  split at hg
  · cases hg
  rename_i l hl
  dsimp only at hg
  rw [Option.map_eq_some_iff] at hg
  obtain ⟨g2, h1, rfl⟩ := hg
  have h0 := h.change (h.sects l (List.mem_of_getElem? hl)) true
  have h2 : AlignOk g2 := by
    refine foldlM_inv AlignOk ?_ (fun x s s' _ hs hx => hs.line hx) h1
    split
    · exact h0.emit (noSwitch_cons (by simp) noSwitch_nil)
    · exact h0
  refine (h2.emit ?_).handled _ _
  refine noSwitch_append ?_ (noSwitch_cons (by simp) noSwitch_nil)
  split
  · exact noSwitch_cons (by simp) noSwitch_nil
  · exact noSwitch_nil

theorem AlignOk.newFunction {o : GenOpts} {g g' : GenSt} {b : GBlock} (h : AlignOk g) (hg : writeNewFunction o g b = some g') : AlignOk g' := by
  unfold writeNewFunction at hg
  rw [Option.map_eq_some_iff] at hg
  obtain ⟨g2, h1, rfl⟩ := hg
  have := (h.block h1).emit (x := [.text [10#8], .info ⟨g2.nsyms + 1, b.name.text, renamed g2.s.f1 b.name,
    if b.unlink then none else (b.pair.bind g2.s.f0.at).map fun p => p.name.text⟩])
    (noSwitch_cons (by simp) (noSwitch_cons (by simp) noSwitch_nil))
  exact ⟨this.run, this.sects⟩

theorem AlignOk.func {o : GenOpts} {g g' : GenSt} {b : GBlock} (h : AlignOk g) (hg : writeFunc o g b = some g') : AlignOk g' := by
  unfold writeFunc at hg
  dsimp only at hg
  obtain ⟨out, h1, h2⟩ := Option.bind_eq_some_iff.1 hg
  have hl := noSwitch_lines h1
  have h3 : ∀ pre : List Out, NoSwitch pre → AlignOk ((g.emit (pre ++ out)).handled false b.start) :=
    fun pre hp => (h.emit (noSwitch_append hp hl)).handled _ _
  have h4 := h3 (Out.text (lit "#---------- func ---------\n") :: (if (o.global || becameGlobal g b) = true then [Out.globl b.name.text] else []))
    (noSwitch_cons (by simp) (by split; exact noSwitch_cons (by simp) noSwitch_nil; exact noSwitch_nil))
  split at h2
  · cases h2; exact h4
  · split at h2
    · cases h2; exact h4.handled _ _
    · rw [Option.map_eq_some_iff] at h2
      obtain ⟨g2, h5, rfl⟩ := h2
      refine AlignOk.emit ?_ (noSwitch_cons (by simp) noSwitch_nil)
      exact ((h4.handled true _).emit (noSwitch_cons (by simp) (noSwitch_cons (by simp) (noSwitch_cons (by simp) noSwitch_nil)))).newFunction h5

theorem AlignOk.var {g g' : GenSt} {b : GBlock} (h : AlignOk g) (hg : writeVar g b = some g') : AlignOk g' := by
  unfold writeVar at hg
  dsimp only at hg
  rw [Option.map_eq_some_iff] at hg
  obtain ⟨out, h1, rfl⟩ := hg
  refine ((h.emit (noSwitch_append (noSwitch_cons (by simp) ?_) (noSwitch_lines h1))).handled _ _).handledOpt _ _
  split
  · exact noSwitch_cons (by simp) noSwitch_nil
  · exact noSwitch_nil

theorem AlignOk.other {g g' : GenSt} {b : GBlock} (h : AlignOk g) (hg : writeOther g b = some g') : AlignOk g' := by
  unfold writeOther at hg
  rw [Option.map_eq_some_iff] at hg
  obtain ⟨out, h1, rfl⟩ := hg
  exact ((h.emit (noSwitch_lines h1)).handled _ _).handledOpt _ _

theorem AlignOk.attr {g g' : GenSt} {n : Bool} {b : GBlock} {p : Option GBlock} (h : AlignOk g) (hg : writeAttr g n b p = some g') : AlignOk g' := by
  unfold writeAttr at hg
  rw [Option.map_eq_some_iff] at hg
  obtain ⟨out, h1, rfl⟩ := hg
  exact ((h.emit (noSwitch_lines h1)).handled _ _).handledOpt _ _

theorem writeCblocks_align {o : GenOpts} {s : GSt} {g : GenSt} (hs : ∀ l ∈ s.f1.ls, l.sect.outname ≠ some dataPlace)
    (h : writeCblocks o s = some g) : AlignOk g := by
  unfold writeCblocks at h
  obtain ⟨g1, h1, h⟩ := Option.bind_eq_some_iff.1 h
  obtain ⟨g2, h2, h⟩ := Option.bind_eq_some_iff.1 h
  obtain ⟨g3, h3, h⟩ := Option.bind_eq_some_iff.1 h
  obtain ⟨g4, h4, h⟩ := Option.bind_eq_some_iff.1 h
  obtain ⟨g5, h5, h⟩ := Option.bind_eq_some_iff.1 h
  obtain ⟨g6, h6, h⟩ := Option.bind_eq_some_iff.1 h
  obtain ⟨g7, h7, h⟩ := Option.bind_eq_some_iff.1 h
  obtain ⟨g8, h8, h⟩ := Option.bind_eq_some_iff.1 h
  split at h
  case isFalse => cases h
  cases h
  have q0 : AlignOk ⟨s, [], 0, false, [], []⟩ := ⟨rfl, hs⟩
  have q1 : AlignOk g1 := by
    unfold writeHeader at h1
    split at h1
    · cases h1; exact q0
    · exact q0.other h1
  have q2 : AlignOk g2 := foldlM_inv AlignOk q1 (fun x t t' _ ht hx => by
    unfold writeOld at hx
    split at hx
    · cases hx; exact ht
    · split at hx
      · exact ht.func hx
      · exact ht.var hx
      · cases hx; exact ht) h2
  have q3 : AlignOk g3 := foldlM_inv AlignOk q2 (fun x t t' _ ht hx => by
    unfold writeNew at hx
    split at hx
    · cases hx; exact ht
    · split at hx
      · cases hx; exact ht
      · split at hx
        · exact (ht.emit (noSwitch_cons (by simp) noSwitch_nil)).newFunction hx
        · exact ht.block hx
        · cases hx; exact ht) h3
  have q4 : AlignOk g4 := foldlM_inv AlignOk q3 (fun x t t' _ ht hx => by
    obtain ⟨r', rfl⟩ := renameUnlinked_frame hx
    exact ⟨ht.run, ht.sects⟩) h4
  have q5 : AlignOk g5 := foldlM_inv AlignOk q4 (fun x t t' _ ht hx => by
    unfold writeUnlinked at hx
    split at hx
    · cases hx; exact ht
    · split at hx
      · exact (ht.emit (noSwitch_cons (by simp) noSwitch_nil)).newFunction hx
      · cases hx; exact ht) h5
  have q6 : AlignOk g6 := foldlM_inv AlignOk q5 (fun x t t' _ ht hx => by
    unfold writeAttr0 at hx
    split at hx
    · cases hx; exact ht
    · exact ht.attr hx) h6
  have q7 : AlignOk g7 := foldlM_inv AlignOk q6 (fun x t t' _ ht hx => by
    unfold writeAttr1 at hx
    split at hx
    · cases hx; exact ht
    · split at hx
      · cases hx; exact ht
      · exact ht.attr hx) h7
  exact foldlM_inv AlignOk q7 (fun x t t' _ ht hx => by
    unfold writeOthers at hx
    split at hx
    · cases hx; exact ht
    · split at hx
      · cases hx; exact ht
      · exact ht.other hx) h8

/-- No section has the section for data as a place of its own. -/
def NoData (ss : List SectInfo) : Prop := ∀ s ∈ ss, s.outname ≠ some dataPlace

theorem parseSection_noData {known cur known' : List SectInfo} {d : Dir} {l : List Byte} {s : SectInfo} (hk : NoData known) (hc : NoData cur)
    (h : parseSection known cur d l = .change s known') : s.outname ≠ some dataPlace ∧ NoData known' := by
  have dup : ∀ x : Option SectInfo, (∀ y, x = some y → y.outname ≠ some dataPlace) → dupSection known x = .change s known' →
      s.outname ≠ some dataPlace ∧ NoData known' := by
    intro x hx hd
    unfold dupSection at hd
    split at hd
    · cases hd
    · cases hd
      exact ⟨hx _ rfl, hk⟩
  have find : ∀ n y, findSection known n = some y → y.outname ≠ some dataPlace := fun n y hy => hk y (List.mem_of_find?_eq_some hy)
  have line : SectStep.change (parseSectionLine known l).1 (parseSectionLine known l).2 = .change s known' →
      s.outname ≠ some dataPlace ∧ NoData known' := by
    intro e
    injection e with e1 e2
    rw [← e1, ← e2]
    unfold parseSectionLine
    dsimp only
    split
    · rename_i y hy
      exact ⟨find _ y hy, hk⟩
    · refine ⟨by simp, fun y hy => ?_⟩
      rcases List.mem_append.1 hy with hy | hy
      · exact hk y hy
      · rw [List.mem_singleton.1 hy]; simp
  unfold parseSection at h
  split at h
  · exact dup _ (find _) h
  · exact dup _ (find _) h
  · exact dup _ (find _) h
  · exact line h
  · exact line h
  · exact dup _ (fun y hy => hc y (List.mem_of_mem_drop (List.mem_of_head? hy))) h
  · exact dup _ (fun y hy => hc y (List.mem_of_mem_drop (List.mem_of_head? hy))) h
  · exact dup _ (fun y hy => hc y (List.mem_of_head? hy)) h
  · cases h

theorem sectionLoop_noData : ∀ (ls : List (List Byte)) {known cur r K : List SectInfo}, NoData known → NoData cur →
    sectionLoop known cur ls = some (r, K) → NoData r ∧ NoData K
  | [], known, cur, r, K, hk, hc, h => by cases h; exact ⟨fun _ h => absurd h List.not_mem_nil, hk⟩
  | l :: ls, known, cur, r, K, hk, hc, h => by
    rw [sectionLoop] at h
    split at h
    · cases h
    · obtain ⟨⟨r', K'⟩, h1, h2⟩ := Option.bind_eq_some_iff.1 h
      rw [Option.map_eq_some_iff] at h2
      obtain ⟨c, e, h2⟩ := h2
      cases h2
      obtain ⟨q1, q2⟩ := sectionLoop_noData ls hk hc h1
      refine ⟨fun s hs => ?_, q2⟩
      rcases List.mem_cons.1 hs with rfl | hs
      · exact hc _ (List.mem_of_head? e)
      · exact q1 s hs
    · rename_i x known' hp
      rw [Option.map_eq_some_iff] at h
      obtain ⟨⟨r', K'⟩, h1, h2⟩ := h
      cases h2
      obtain ⟨p1, p2⟩ := parseSection_noData hk hc hp
      obtain ⟨q1, q2⟩ := sectionLoop_noData ls p2 (fun s hs => by
        rcases List.mem_cons.1 hs with rfl | hs
        · exact p1
        · exact hc s hs) h1
      refine ⟨fun s hs => ?_, q2⟩
      rcases List.mem_cons.1 hs with rfl | hs
      · exact p1
      · exact q1 s hs

theorem loadGFile_noData {known known' : List SectInfo} {i : GenInput} {f : GFile} (hk : NoData known)
    (h : loadGFile known i = some (f, known')) : (∀ l ∈ f.ls, l.sect.outname ≠ some dataPlace) ∧ NoData known' := by
  unfold loadGFile at h
  obtain ⟨st, h1, h⟩ := Option.bind_eq_some_iff.1 h
  obtain ⟨⟨ls, k⟩, h2, h⟩ := Option.bind_eq_some_iff.1 h
  rw [Option.map_eq_some_iff] at h
  obtain ⟨cb, h3, h⟩ := h
  cases h
  unfold makeLines at h2
  rw [Option.map_eq_some_iff] at h2
  obtain ⟨⟨r, K⟩, h2, e⟩ := h2
  cases e
  generalize st.map (·.1) = stmts at h2 h3
  have key : NoData r ∧ NoData K := by
    unfold initSections at h2
    cases stmts with
    | nil => cases h2; exact ⟨fun _ h => absurd h List.not_mem_nil, hk⟩
    | cons s ss =>
      dsimp only at h2
      obtain ⟨t, e1, h2⟩ := Option.bind_eq_some_iff.1 h2
      rw [Option.map_eq_some_iff] at h2
      obtain ⟨⟨r', K'⟩, e2, h2⟩ := h2
      cases h2
      have ht : t.outname ≠ some dataPlace := hk t (List.mem_of_find?_eq_some e1)
      obtain ⟨q1, q2⟩ := sectionLoop_noData ss hk (fun s hs => by rw [List.mem_singleton.1 hs]; exact ht) e2
      refine ⟨fun s hs => ?_, q2⟩
      rcases List.mem_cons.1 hs with rfl | hs
      · exact ht
      · exact q1 s hs
  refine ⟨fun l hl => ?_, key.2⟩
  have e := cblocksLoop_keys _ h3
  have hm : lnKey l ∈ cb.ls.map lnKey := List.mem_map_of_mem hl
  rw [e] at hm
  obtain ⟨l', hl', e'⟩ := List.mem_map.1 hm
  obtain ⟨x, hx, rfl⟩ := List.mem_map.1 hl'
  unfold lnKey at e'
  injection e' with _ e'
  rw [← e']
  exact key.1 _ (List.of_mem_zip hx).2

theorem predefined_noData : NoData predefinedSections := by unfold NoData; decide +kernel

/-! ### The properties -/

variable {o : GenOpts} {i0 i1 : GenInput} {L : GSt} {out : List Out}

/-- C88: a statement of a function or variable of the new file that is in the output is in a part of it in which every
statement is assembled into the section of the patch for its section, whatever the section before; after this part the
section is the one before.  The sections of the statements are those of C61; in particular a statement that does not change
the section is in the section of the statement before. -/
theorem C88_placed_partial (h0 : i0.IsText) (h1 : i1.IsText) (hL : loadBoth i0 i1 = some L) (hn : L.f0.Named) (h : gensrc o i0 i1 = some out) :
    SectionsRecorded L.f1.ls ∧ ∀ i t sep, Out.line true i t sep ∈ out → ∃ b1 ∈ L.f1.bs, b1.start ≤ i ∧ i < b1.stop ∧
      (b1.ty = .func ∨ b1.ty = .var → ∃ pre code post, out = pre ++ code ++ post ∧ Out.line true i t sep ∈ code ∧
        ∀ st, Placed L.f1.ls st code ∧ runOut st code = st) := by
  have hS : SectionsRecorded L.f1.ls := by
    unfold loadBoth at hL
    obtain ⟨⟨f0, k⟩, _, hL⟩ := Option.bind_eq_some_iff.1 hL
    rw [Option.map_eq_some_iff] at hL
    obtain ⟨⟨f1, k'⟩, h2, rfl⟩ := hL
    exact loadGFile_recorded h2
  refine ⟨hS, fun i t sep hm => ?_⟩
  obtain ⟨a, s, hr⟩ := gensrc_run h0 h1 hL hn h
  obtain ⟨b1, hb1, q1, q2, q3⟩ := hr.codeOf hm
  refine ⟨b1, hb1, q1, q2, fun ht => ?_⟩
  obtain ⟨pre, code, post, r, fl, e, hl, hc⟩ := q3 ht
  exact ⟨pre, code, post, e, hl, hc.placed hS⟩

/-- C88: the output asks for the alignment to a page exactly where it first switches to the section for the data of the
patch, and nowhere else, so that the data of the patch begin at a page of their own. -/
theorem C88_aligned (h0 : i0.IsText) (h1 : i1.IsText) (hL : loadBoth i0 i1 = some L) (hn : L.f0.Named) (h : gensrc o i0 i1 = some out) :
    (alignRun false out).isSome := by
  obtain ⟨a, s, hr⟩ := gensrc_run h0 h1 hL hn h
  obtain ⟨g, hg, rfl⟩ := hr.src
  have hd : ∀ l ∈ s.f1.ls, l.sect.outname ≠ some dataPlace := by
    rw [hr.rest1.ls]
    unfold loadBoth at hL
    obtain ⟨⟨f0, k⟩, h1, hL⟩ := Option.bind_eq_some_iff.1 hL
    rw [Option.map_eq_some_iff] at hL
    obtain ⟨⟨f1, k'⟩, h2, rfl⟩ := hL
    exact (loadGFile_noData (loadGFile_noData predefined_noData h1).2 h2).1
  rw [(writeCblocks_align hd hg).run]
  rfl

/-- A declaration of the symbol as global. -/
def DeclGlobal (d : Out) (nm : List Byte) : Prop := d = .globl nm ∨ d = .text (lit "\t.globl " ++ nm ++ lit "\n")

/-- C89: a function or variable that is global in the new file and was not in the old one is declared global in the output,
right before the original.  Left out are the names made by the compiler, for which the counterpart is searched by other
means. -/
theorem C89_global (h0 : i0.IsText) (h1 : i1.IsText) (hL : loadBoth i0 i1 = some L) (hn : L.f0.Named) (h : gensrc o i0 i1 = some out)
    {b0 b1 : GBlock} (hb0 : b0 ∈ L.f0.bs) (ht : b0.ty = .func ∨ (b0.ty = .var ∧ compilerName b0.name.text = false)) (hau : b0.auto = false)
    (hb1 : b1 ∈ L.f1.bs) (hnm : b1.name.text = b0.name.text) (hg : b1.globl = true) (hl : b0.globl = false) :
    ∃ pre d post, out = pre ++ [d] ++ verbatim L.f0 false b0 ++ post ∧ DeclGlobal d b0.name.text := by
  obtain ⟨a, s, hr⟩ := gensrc_run h0 h1 hL hn h
  have hne := hn b0 hb0 (ht.imp id (·.1))
  have hf := find_of_name hr.k1 hb1 (hr.k0.ok b0 hb0).1 hnm (hnm ▸ hne)
  have hp : a.P0 b0.start = some b1.start := by
    rcases ht with ht | ⟨ht, hc⟩
    · exact (hr.an.exact b0 hb0 ht hau hne b1 hf).1
    · cases hq : a.P0 b0.start with
      | none => exact absurd (hr.an.kept b0 hb0 ht hq) (by rw [mayVanish_eq b0 (hr.k0.ok b0 hb0).1]; rw [hc]; decide)
      | some q =>
        obtain ⟨c, hcm, e1, e2⟩ := hr.an.inv.mat b0 hb0 q hq
        rcases e2 with e2 | ⟨e2, _⟩
        · rw [hr.k1.uniq c hcm b1 hb1 (e2.symm.trans hnm.symm) (by rw [← e2]; exact hne)] at e1
          rw [e1]
        · rw [hau] at e2; cases e2
  have hno := (hr.notOther hb0 hb1 hp).2
  have hne0 : b0.ty ≠ .other := by rcases ht with ht | ⟨ht, _⟩ <;> rw [ht] <;> decide
  have hgl : globalNow s (b0.dec a.P0 noFlag noFlag) = true := by
    unfold globalNow
    rw [show (b0.dec a.P0 noFlag noFlag).pair = some b1.start from hp, Option.bind_some, hr.at1 hb1 hno]
    show ((b1.dec a.P1 a.I a.U).globl && !(b0.dec a.P0 noFlag noFlag).globl) = true
    rw [show (b1.dec a.P1 a.I a.U).globl = b1.globl from rfl, show (b0.dec a.P0 noFlag noFlag).globl = b0.globl from rfl, hg, hl]
    rfl
  obtain ⟨r2, hdr, olds, news, unl, att0, att1, oth, e, _, ho, _⟩ := hr.wr.pieces
  obtain ⟨x, hx, u, v, ex⟩ := piece_mem ho (hr.mem0 hb0 hne0)
  have key : ∃ p d post, x = p ++ [d] ++ verbatim L.f0 false b0 ++ post ∧ DeclGlobal d b0.name.text := by
    rw [← hr.verb0]
    unfold OldPiece at hx
    rcases ht with ht | ⟨ht, _⟩
    · rw [show (b0.dec a.P0 noFlag noFlag).ty = .func from ht] at hx
      dsimp only at hx
      obtain ⟨pre, post, rfl, hpre, _⟩ := hx
      obtain ⟨p, rfl⟩ := hpre.decl hgl
      exact ⟨p, _, post, rfl, Or.inl rfl⟩
    · rw [show (b0.dec a.P0 noFlag noFlag).ty = .var from ht] at hx
      dsimp only at hx
      obtain ⟨pre, rfl, hpre⟩ := hx
      obtain ⟨p, rfl⟩ := hpre.decl hgl
      exact ⟨p, _, [], (List.append_nil _).symm, Or.inr rfl⟩
  obtain ⟨p, d, post, rfl, hd⟩ := key
  exact ⟨hdr ++ u ++ p, d, post ++ v ++ news.flatten ++ unl.flatten ++ att0.flatten ++ att1.flatten ++ oth.flatten, by
    rw [e, ex]; simp only [List.append_assoc, List.cons_append, List.nil_append], hd⟩

end Target

section X86

attribute [local instance] x86Asm

/-- `C88_placed_partial` and `C88_aligned` for the file in which `f` has changed. -/
example : SectionsRecorded exL.f1.ls ∧ (alignRun false exOut).isSome ∧ lit "\tmovl\t$2, %eax" ∈ lineTexts true exOut :=
  ⟨(C88_placed_partial exText.1 exText.2 exL_eq exNamed exOut_eq).1, C88_aligned exText.1 exText.2 exL_eq exNamed exOut_eq,
    by decide +kernel⟩

/-- The lines of a text. -/
def textLines (s : List Byte) : List (List Byte) :=
  s.foldr (fun c r => if c = 10#8 then [] :: r else match r with | [] => [[c]] | l :: r => (c :: l) :: r) []

/-- The lines of the output with the sections the assembler puts them in. -/
def asmSections (out : List Out) : List (List Byte × List Byte) :=
  let ls := textLines (out.flatMap (Out.render false 12))
  ls.zip (asSections ⟨lit ".text", none, []⟩ (ls.map sectCmd))

/-- A function in the section in which compilers put `main`. -/
def exStart (n : String) : GenInput := exIn ["\t.section\t.text.startup,\"ax\",@progbits", "\t.globl\tmain", "\t.type\tmain, @function",
  "main:", "\tmovl\t$" ++ n ++ ", %eax", "\tret", "\t.size\tmain, .-main", "\t.ident\t\"GCC\""]

/-- C88 is violated: the label after the original `main` is in another section than `main`, so that the size of the original
in the record, the difference of the two, cannot be computed by the assembler. -/
theorem C88_violated_end_label : ∃ out, gensrc exOpts (exStart "1") (exStart "2") = some out ∧
    (lit "main:", lit ".text.startup") ∈ asmSections out ∧ (lit "main.Lfe:", lit ".text") ∈ asmSections out ∧
    lit "\t.long main.Lfe - main" ∈ (asmSections out).map (·.1) ∧
    (lit "main.Lfe:", lit ".text.startup") ∉ asmSections out ∧ (lit "main:", lit ".text") ∉ asmSections out :=
  ⟨(gensrc exOpts (exStart "1") (exStart "2")).getD [], by decide +kernel⟩

/-- In the section `.text` the two labels are in the same section, and the new code is in its own. -/
example : (lit "f:", lit ".text") ∈ asmSections exOut ∧ (lit "f.Lfe:", lit ".text") ∈ asmSections exOut ∧
    (lit "f.kpatch:", lit ".kpatch.text") ∈ asmSections exOut := by decide +kernel

/-- `f` and `x` are made global. -/
def exLocal (g : Bool) : GenInput := exIn ((if g then ["\t.text", "\t.globl\tf"] else ["\t.text"]) ++
  ["\t.type\tf, @function", "f:", "\tmovl\tx(%rip), %eax", "\tret", "\t.size\tf, .-f"] ++
  (if g then ["\t.globl\tx", "\t.data"] else ["\t.data"]) ++ ["\t.type\tx, @object", "\t.size\tx, 4", "x:", "\t.long\t7", "\t.ident\t\"GCC\""])

/-- The hypotheses of `C89_global` hold for both. -/
example : ∃ L out, loadBoth (exLocal false) (exLocal true) = some L ∧ gensrc exOpts (exLocal false) (exLocal true) = some out ∧
    (L.f0.bs.map fun b => (b.name.text, b.ty, b.globl, b.auto)) = [(lit "f", .func, false, false), (lit "x", .var, false, false), ([], .other, false, false)] ∧
    (L.f1.bs.map fun b => (b.name.text, b.ty, b.globl)) = [(lit "f", .func, true), (lit "x", .var, true), ([], .other, false)] ∧
    compilerName (lit "x") = false ∧ lit "\t.globl\tf" ∈ (asmSections out).map (·.1) ∧ lit "\t.globl x" ∈ (asmSections out).map (·.1) :=
  ⟨(loadBoth (exLocal false) (exLocal true)).get (by decide +kernel), (gensrc exOpts (exLocal false) (exLocal true)).get (by decide +kernel),
    by simp, by simp, by decide +kernel⟩

end X86

end Verif
