import Verif.Spec.Sections
import Verif.Props.Dbgfilter
/-
C61: the section recorded for every line is the one the assembler puts it in.
-/
namespace Verif

section Target

variable [AsmTarget]

theorem firstTok_head (l : List Byte) (h : firstTok l ≠ []) : (firstTok l).head? = (skipBlanks l).head? := by
  unfold firstTok getToken at *
  by_cases hend : atEnd (skipBlanks l) = true
  · rw [getTokenD_end _ _ hend] at h; simp [Kpstr.text] at h
  · simp only [getTokenD, hend, Kpstr.text] at h ⊢
    cases hs : skipBlanks l with
    | nil => rw [hs] at h; simp at h
    | cons c r =>
      rw [hs] at h
      simp only [Bool.false_eq_true, if_false] at h ⊢
      cases hn : (c :: r).length - (tokenEnd delims (c :: r)).length with
      | zero => rw [hn] at h; simp at h
      | succ n => simp

theorem getToken_skip (l : List Byte) : getToken (some (skipBlanks l)) = getToken (some l) := by
  simp only [getToken, getTokenD, skipBlanks_idem]

theorem parseCtype_eq (l : List Byte) :
    (∃ d ∈ asmDirectives, d.2 = firstTok l ∧ parseCtype l = d.1) ∨
    ((∀ d ∈ asmDirectives, d.2 ≠ firstTok l) ∧ parseCtype l ∈ [Dir.comment, .label, .localLabel, .other]) := by
  have hdots : ∀ d ∈ asmDirectives, d.2 ≠ [] ∧ d.2.head? = some 46#8 := by decide +kernel
  unfold parseCtype
  dsimp only
  by_cases hc : (skipBlanks l).head? = some 35#8 ∨
      (slashComments = true ∧ (skipBlanks l).head? = some 47#8 ∧ ((skipBlanks l).drop 1).head? = some 47#8)
  · right
    rw [if_pos hc]
    refine ⟨fun d hd e => ?_, by simp⟩
    have h1 := hdots d hd
    have h2 := firstTok_head l (e ▸ h1.1)
    rw [← e, h1.2] at h2
    rcases hc with hc | hc
    · rw [hc] at h2; exact absurd h2 (by decide)
    · rw [hc.2.1] at h2; exact absurd h2 (by decide)
  · rw [if_neg hc, getToken_skip]
    have hf : findCtype (getToken (some l)).1 = (asmDirectives.find? fun d => d.2 = firstTok l).map (·.1) := by
      unfold findCtype
      congr 2
      funext d
      exact decide_eq_decide.mpr ((tokIs_iff l d.2).trans eq_comm)
    rw [hf]
    cases hd : asmDirectives.find? fun d => d.2 = firstTok l with
    | some d =>
      left
      have h1 := List.mem_of_find?_eq_some hd
      have h2 := List.find?_some hd
      exact ⟨d, h1, by simpa using h2, rfl⟩
    | none =>
      right
      rw [List.find?_eq_none] at hd
      refine ⟨fun d h e => by simpa [e] using hd d h, ?_⟩
      simp only [Option.map_none]
      cases (getToken (some l)).2 with
      | none => simp
      | some r =>
        dsimp only
        split
        · split <;> simp
        · simp

/-- What parse_section does, by the command of the line. -/
def stepCmd (known cur : List SectInfo) (line : List Byte) : SectCmd → SectStep
  | .nothing => .keep
  | .goto n =>
    if firstTok line = lit ".section" then
      let (s, known) := parseSectionLine known line
      .change s known
    else dupSection known (findSection known n)
  | .push _ =>
    let (s, known) := parseSectionLine known line
    .change s known
  | .pop | .previous => dupSection known (cur.drop 1).head?
  | .subsection => dupSection known cur.head?

theorem parseSection_cmd (known cur : List SectInfo) (l : List Byte) :
    parseSection known cur (parseCtype l) l = stepCmd known cur l (sectCmd l) := by
  rcases parseCtype_eq l with ⟨d, hd, h1, h2⟩ | ⟨h1, h2⟩
  · have hw : ∀ d ∈ asmDirectives, (d.2 = lit ".text" ↔ d.1 = .text) ∧ (d.2 = lit ".data" ↔ d.1 = .data) ∧
        (d.2 = lit ".bss" ↔ d.1 = .bss) ∧ (d.2 = lit ".section" ↔ d.1 = .sect) ∧
        (d.2 = lit ".pushsection" ↔ d.1 = .pushsection) ∧ (d.2 = lit ".popsection" ↔ d.1 = .popsection) ∧
        (d.2 = lit ".previous" ↔ d.1 = .previous) ∧ (d.2 = lit ".subsection" ↔ d.1 = .subsection) := by
      decide +kernel
    obtain ⟨w1, w2, w3, w4, w5, w6, w7, w8⟩ := hw d hd
    rw [h1] at w1 w2 w3 w4 w5 w6 w7 w8
    rw [h2]
    unfold sectCmd
    dsimp only
    simp only [w1, w2, w3, w4, w5, w6, w7, w8]
    cases hdd : d.1 <;> simp [parseSection, stepCmd, w4, hdd] <;> congr 2
    all_goals first
      | exact (w1.mpr hdd).symm
      | exact (w2.mpr hdd).symm
      | exact (w3.mpr hdd).symm
  · have hn : ∀ w ∈ asmDirectives.map (·.2), firstTok l ≠ w := by
      intro w hw e
      obtain ⟨d, hd, rfl⟩ := List.mem_map.mp hw
      exact h1 d hd e.symm
    have hcmd : sectCmd l = .nothing := by
      unfold sectCmd
      dsimp only
      rw [if_neg, if_neg, if_neg, if_neg, if_neg, if_neg] <;>
      first
        | exact hn _ (by decide +kernel)
        | (rintro (h | h | h) <;> exact hn _ (by decide +kernel) h)
    rw [hcmd]
    simp only [List.mem_cons, List.not_mem_nil, or_false] at h2
    rcases h2 with h | h | h | h <;> rw [h] <;> rfl

theorem findSection_name {known : List SectInfo} {n : List Byte} {s : SectInfo} (h : findSection known n = some s) :
    s.name = n ∧ s ∈ known := by
  unfold findSection at h
  exact ⟨by simpa using List.find?_some h, List.mem_of_find?_eq_some h⟩

theorem parseSectionLine_name (known : List SectInfo) (l : List Byte) :
    (parseSectionLine known l).1.name = unquoteName (sectionWord l).1 := by
  unfold parseSectionLine sectionWord
  dsimp only
  split
  · rename_i h; exact (findSection_name h).1
  · rfl

theorem sectCmd_goto {l n : List Byte} (h : sectCmd l = .goto n) (h2 : firstTok l = lit ".section") :
    n = unquoteName (sectionWord l).1 := by
  have hne : lit ".section" ≠ lit ".text" ∧ lit ".section" ≠ lit ".data" ∧ lit ".section" ≠ lit ".bss" := by decide +kernel
  unfold sectCmd at h
  dsimp only at h
  rw [if_neg (by rw [h2]; rintro (e | e | e) <;> simp [e] at hne), if_pos h2] at h
  cases h; rfl

theorem sectCmd_push {l n : List Byte} (h : sectCmd l = .push n) :
    firstTok l = lit ".pushsection" ∧ n = unquoteName (sectionWord l).1 := by
  unfold sectCmd at h
  dsimp only at h
  split at h
  · cases h
  split at h
  · cases h
  split at h
  · rename_i e; cases h; exact ⟨e, rfl⟩
  split at h
  · cases h
  split at h
  · cases h
  split at h <;> cases h

/-- A section directive: the new section has the name the assembler would give it. -/
theorem stepCmd_change {known : List SectInfo} {c : SectInfo} {rest : List SectInfo} {l : List Byte} {cmd : SectCmd}
    {s : SectInfo} {k : List SectInfo} (hc : sectCmd l = cmd) (h : stepCmd known (c :: rest) l cmd = .change s k) :
    (∃ n, cmd = .goto n ∧ s.name = n) ∨ (∃ n, cmd = .push n ∧ s.name = n) ∨ (cmd = .pop ∧ rest.head? = some s) ∨
      (cmd = .previous ∧ rest.head? = some s) ∨ (cmd = .subsection ∧ s = c) := by
  have hdup : ∀ (o : Option SectInfo), dupSection known o = .change s k → o = some s := by
    intro o ho
    cases o with
    | none => cases ho
    | some x => simp only [dupSection, SectStep.change.injEq] at ho; rw [ho.1]
  cases cmd with
  | nothing => cases h
  | goto n =>
    refine Or.inl ⟨n, rfl, ?_⟩
    simp only [stepCmd] at h
    split at h
    · rename_i h2
      cases h
      rw [parseSectionLine_name, sectCmd_goto hc h2]
    · exact (findSection_name (hdup _ h)).1
  | push n =>
    refine Or.inr (Or.inl ⟨n, rfl, ?_⟩)
    simp only [stepCmd] at h
    cases h
    rw [parseSectionLine_name, (sectCmd_push hc).2]
  | pop => exact Or.inr (Or.inr (Or.inl ⟨rfl, by simpa using hdup _ h⟩))
  | previous => exact Or.inr (Or.inr (Or.inr (Or.inl ⟨rfl, by simpa using hdup _ h⟩)))
  | subsection => exact Or.inr (Or.inr (Or.inr (Or.inr ⟨rfl, by simpa using (hdup (some c) h).symm⟩)))

theorem sectionLoop_spec : ∀ (lines : List (List Byte)) (known : List SectInfo) (c : SectInfo) (rest : List SectInfo)
    (last : SectCmd) (st : AsState) (out k : List SectInfo),
    st.cur = c.name → (last ≠ .pop → st.prev = rest.head?.map (·.name)) →
    (∀ n, last = .push n → ∃ r0 p s, rest.head? = some r0 ∧ st.stack = (r0.name, p) :: s) →
    sectionLoop known (c :: rest) lines = some (out, k) → FlatCmds last (lines.map sectCmd) →
    out.map (·.name) = asSections st (lines.map sectCmd) := by
  intro lines
  induction lines with
  | nil => intro _ _ _ _ _ _ _ _ _ _ h _; simp only [sectionLoop, Option.some.injEq, Prod.mk.injEq] at h; rw [← h.1]; rfl
  | cons l ls ih =>
    intro known c rest last st out k hcur hprev hpush h hflat
    rw [sectionLoop, parseSection_cmd] at h
    generalize hcmd : sectCmd l = cmd at h
    rw [List.map_cons, hcmd] at hflat ⊢
    rw [asSections]
    split at h
    · cases h
    · rename_i hk
      have hn : cmd = .nothing := by
        cases cmd with
        | nothing => rfl
        | goto n =>
          simp only [stepCmd] at hk
          split at hk
          · cases hk
          · cases hf : findSection known n <;> rw [hf] at hk <;> cases hk
        | push n => cases hk
        | pop => simp only [stepCmd] at hk; cases hf : (List.drop 1 (c :: rest)).head? <;> rw [hf] at hk <;> cases hk
        | previous => simp only [stepCmd] at hk; cases hf : (List.drop 1 (c :: rest)).head? <;> rw [hf] at hk <;> cases hk
        | subsection => cases hk
      subst hn
      rw [Option.bind_eq_some_iff] at h
      obtain ⟨⟨o, k'⟩, h1, h2⟩ := h
      simp only [List.head?_cons, Option.map_some, Option.some.injEq, Prod.mk.injEq] at h2
      rw [← h2.1, List.map_cons, ih known c rest last st o k' hcur hprev hpush h1 hflat, AsState.step, hcur]
    · rename_i s known' hk
      rw [Option.map_eq_some_iff] at h
      obtain ⟨⟨o, k'⟩, h1, h2⟩ := h
      simp only [Prod.mk.injEq] at h2
      rw [← h2.1, List.map_cons]
      have fin : ∀ (last' : SectCmd), s.name = (st.step cmd).cur →
          (last' ≠ .pop → (st.step cmd).prev = some c.name) →
          (∀ n, last' = .push n → ∃ p s, (st.step cmd).stack = (c.name, p) :: s) →
          FlatCmds last' (ls.map sectCmd) →
          s.name :: o.map (·.name) = (st.step cmd).cur :: asSections (st.step cmd) (ls.map sectCmd) := by
        intro last' e1 e2 e3 e4
        rw [ih known' s (c :: rest) last' (st.step cmd) o k' e1.symm (by simpa using e2)
          (fun n e => by obtain ⟨p, s', h⟩ := e3 n e; exact ⟨c, p, s', rfl, h⟩) h1 e4, e1]
      rcases stepCmd_change hcmd hk with ⟨n, rfl, e⟩ | ⟨n, rfl, e⟩ | ⟨rfl, e⟩ | ⟨rfl, e⟩ | ⟨rfl, e⟩
      · obtain ⟨f1, f2, f3⟩ := hflat
        exact fin _ e (fun _ => by simp [AsState.step, hcur]) (fun _ h => by cases h) f3
      · obtain ⟨f1, f2, f3⟩ := hflat
        exact fin _ e (fun _ => by simp [AsState.step, hcur])
          (fun _ _ => ⟨st.prev, st.stack, by simp [AsState.step, hcur]⟩) f3
      · obtain ⟨⟨n, rfl⟩, f2⟩ := hflat
        obtain ⟨r0, p, s', g1, g2⟩ := hpush n rfl
        rw [g1] at e
        cases e
        exact fin .pop (by simp [AsState.step, g2]) (fun h => absurd rfl h) (fun _ h => by cases h) f2
      · obtain ⟨f1, f2, f3⟩ := hflat
        have := hprev (f2 rfl)
        rw [e] at this
        exact fin .previous (by simp [AsState.step, this]) (fun _ => by simp [AsState.step, this, hcur])
          (fun _ h => by cases h) f3
      · obtain ⟨f1, f2, f3⟩ := hflat
        subst e
        exact fin .subsection (by simp [AsState.step, hcur]) (fun _ => by simp [AsState.step, hcur])
          (fun _ h => by cases h) f3

/-- C61, for files whose pushes and pops are flat: the section recorded for every line is the one the assembler puts
it in.  Missing: nested `.pushsection`, other section directives between push and pop, and `.previous` after a pop; for
these the recorded section is wrong, see below. -/
theorem C61_sections_partial (known : List SectInfo) (first : List Byte) (lines : List (List Byte))
    (out k : List SectInfo) (h : initSections known (first :: lines) = some (out, k))
    (hflat : FlatCmds .nothing (lines.map sectCmd)) :
    out.map (·.name) = lit ".text" :: asSections ⟨lit ".text", none, []⟩ (lines.map sectCmd) := by
  simp only [initSections] at h
  rw [Option.bind_eq_some_iff] at h
  obtain ⟨t, ht, h⟩ := h
  rw [Option.map_eq_some_iff] at h
  obtain ⟨⟨o, k'⟩, h1, h2⟩ := h
  simp only [Prod.mk.injEq] at h2
  have hn := (findSection_name ht).1
  rw [← h2.1, List.map_cons, hn,
    sectionLoop_spec lines known t [] .nothing ⟨lit ".text", none, []⟩ o k' hn.symm (fun _ => rfl)
      (fun _ h => by cases h) h1 hflat]

theorem find_x (f : List Byte) : f.find? (fun c => c = 120#8 || c = 34#8) = some 120#8 ↔
    ∃ a q, f = a ++ 120#8 :: q ∧ 34#8 ∉ a := by
  induction f with
  | nil => simp
  | cons c f ih =>
    rw [List.find?_cons]
    by_cases h1 : c = 120#8
    · subst h1
      simp only [decide_true, Bool.true_or, true_iff]
      exact ⟨[], f, rfl, by simp⟩
    · by_cases h2 : c = 34#8
      · subst h2
        simp only [decide_true, Bool.or_true]
        constructor
        · intro h; simp at h
        · rintro ⟨a, q, e, ha⟩
          cases a with
          | nil => simp at e
          | cons x a => simp only [List.cons_append, List.cons.injEq] at e; simp [← e.1] at ha
      · simp only [h1, h2, decide_false, Bool.or_self, ih]
        constructor
        · rintro ⟨a, q, rfl, ha⟩
          exact ⟨c :: a, q, rfl, by simp [ha, Ne.symm h2]⟩
        · rintro ⟨a, q, e, ha⟩
          cases a with
          | nil => simp only [List.nil_append, List.cons.injEq] at e; exact absurd e.1 h1
          | cons x a =>
            simp only [List.cons_append, List.cons.injEq] at e
            exact ⟨a, q, e.2, fun h => ha (by simp [h])⟩

theorem sectAttrExec_iff (l : List Byte) : sectAttrExec (sectionWord l).2 = true ↔ HasXFlag l := by
  unfold sectAttrExec HasXFlag
  generalize (sectionWord l).2 = o
  cases o with
  | none => simp
  | some r =>
    dsimp only
    have hc : kpstrcmpz (getToken (some r)).1 (lit ",") = 0 ↔ (getToken (some r)).1.text = lit "," := tokIs_iff r _
    split
    · rename_i h
      rw [Ne, hc] at h
      simp only [Bool.false_eq_true, false_iff]
      rintro ⟨r', t, r2, e, e1, e2, -⟩
      cases e
      rw [e1] at h
      exact h e2
    · rename_i h
      rw [Ne, Decidable.not_not, hc] at h
      rw [Bool.and_eq_true, decide_eq_true_iff, decide_eq_true_iff, find_x]
      constructor
      · rintro ⟨h1, f, q, h2, h3⟩
        refine ⟨r, (getToken (some r)).1, (getToken (some r)).2, rfl, rfl, h, f, q, ?_, h3⟩
        cases hs : (getToken (getToken (some r)).2).1.s with
        | nil => rw [hs] at h1; simp at h1
        | cons a b =>
          rw [hs] at h1 h2
          simp only [List.head?_cons, Option.some.injEq] at h1
          simp only [List.drop_succ_cons, List.drop_zero] at h2
          rw [h1, h2]; rfl
      · rintro ⟨r', t, r2, e, e1, e2, f, q, h2, h3⟩
        cases e
        rw [e1, h2]
        exact ⟨rfl, f, q, rfl, h3⟩

/-- The section is a predefined one, or the one described by the first line of `pre` that names it. -/
def DescribedBy (pre : List (List Byte)) (s : SectInfo) : Prop :=
  s ∈ predefinedSections ∨
  ((∀ p ∈ predefinedSections, p.name ≠ s.name) ∧
    ∃ (j : Nat) (line : List Byte), pre[j]? = some line ∧ Names s.name line ∧ (∀ j' < j, ∀ l', pre[j']? = some l' → ¬ Names s.name l') ∧
      (s.exec = true ↔ HasXFlag line))

theorem DescribedBy.mono {pre : List (List Byte)} {s : SectInfo} (x : List (List Byte)) (h : DescribedBy pre s) :
    DescribedBy (pre ++ x) s := by
  rcases h with h | ⟨h1, j, line, h2, h3, h4, h5⟩
  · exact Or.inl h
  · have hj : j < pre.length := (List.getElem?_eq_some_iff.mp h2).1
    refine Or.inr ⟨h1, j, line, ?_, h3, fun j' hj' l' hl' => h4 j' hj' l' ?_, h5⟩
    · rw [List.getElem?_append_left hj, h2]
    · rwa [List.getElem?_append_left (by omega)] at hl'

theorem parseSectionLine_described (known : List SectInfo) (pre : List (List Byte)) (l : List Byte)
    (hpre : ∀ p ∈ predefinedSections, p ∈ known)
    (hk : ∀ s ∈ known, DescribedBy pre s) (hall : ∀ l' ∈ pre, ∀ n, Names n l' → ∃ s ∈ known, s.name = n)
    (hl : firstTok l = lit ".section" ∨ firstTok l = lit ".pushsection") :
    (parseSectionLine known l).1 ∈ (parseSectionLine known l).2 ∧
    (∀ p ∈ known, p ∈ (parseSectionLine known l).2) ∧
    (∀ s ∈ (parseSectionLine known l).2, DescribedBy (pre ++ [l]) s) ∧
    (∀ l' ∈ pre ++ [l], ∀ n, Names n l' → ∃ s ∈ (parseSectionLine known l).2, s.name = n) := by
  have hname := parseSectionLine_name known l
  have key : (parseSectionLine known l).1 ∈ (parseSectionLine known l).2 ∧
    (∀ p ∈ known, p ∈ (parseSectionLine known l).2) ∧
    (∀ s ∈ (parseSectionLine known l).2, DescribedBy (pre ++ [l]) s) := by
    unfold parseSectionLine
    dsimp only
    split
    · rename_i s hf
      exact ⟨(findSection_name hf).2, fun _ h => h, fun s hs => (hk s hs).mono _⟩
    · rename_i hf
      have hf' : ∀ s ∈ known, s.name ≠ unquoteName (sectionWord l).1 := by
        intro s hs e
        change findSection known (unquoteName (sectionWord l).1) = none at hf
        unfold findSection at hf
        rw [List.find?_eq_none] at hf
        simpa [e] using hf s hs
      refine ⟨by simp, fun p hp => by simp [hp], fun s hs => ?_⟩
      rw [List.mem_append, List.mem_singleton] at hs
      rcases hs with hs | rfl
      · exact (hk s hs).mono _
      · refine Or.inr ⟨fun p hp e => hf' p (hpre p hp) e, pre.length, l, by simp, ⟨hl, rfl⟩, fun j hj l' hl' hn => ?_,
          sectAttrExec_iff l⟩
        rw [List.getElem?_append_left hj] at hl'
        obtain ⟨s, hs, e⟩ := hall l' (List.mem_of_getElem? hl') _ hn
        exact hf' s hs e
  refine ⟨key.1, key.2.1, key.2.2, fun l' hl' n hn => ?_⟩
  rw [List.mem_append, List.mem_singleton] at hl'
  rcases hl' with hl' | rfl
  · obtain ⟨s, hs, e⟩ := hall l' hl' n hn
    exact ⟨s, key.2.1 s hs, e⟩
  · exact ⟨_, key.1, by rw [hname, hn.2]⟩

theorem names_cmd {n l : List Byte} (h : Names n l) : sectCmd l = .goto n ∨ sectCmd l = .push n := by
  have hne : lit ".section" ≠ lit ".text" ∧ lit ".section" ≠ lit ".data" ∧ lit ".section" ≠ lit ".bss" := by decide +kernel
  have hne2 : lit ".pushsection" ≠ lit ".text" ∧ lit ".pushsection" ≠ lit ".data" ∧ lit ".pushsection" ≠ lit ".bss" ∧
    lit ".pushsection" ≠ lit ".section" := by decide +kernel
  unfold sectCmd
  dsimp only
  rcases h with ⟨h | h, rfl⟩
  · left; rw [if_neg (by rw [h]; rintro (e | e | e) <;> simp [e] at hne), if_pos h]
  · right; rw [if_neg (by rw [h]; rintro (e | e | e) <;> simp [e] at hne2), if_neg (by rw [h]; exact hne2.2.2.2), if_pos h]

theorem sectionLoop_described : ∀ (lines : List (List Byte)) (known cur : List SectInfo) (pre : List (List Byte))
    (out k : List SectInfo), (∀ p ∈ predefinedSections, p ∈ known) →
    (∀ s ∈ known, DescribedBy pre s) → (∀ l' ∈ pre, ∀ n, Names n l' → ∃ s ∈ known, s.name = n) →
    (∀ s ∈ cur, DescribedBy pre s) → sectionLoop known cur lines = some (out, k) →
    ∀ i s, out[i]? = some s → DescribedBy (pre ++ lines.take (i + 1)) s := by
  intro lines
  induction lines with
  | nil =>
    intro _ _ _ _ _ _ _ _ _ h i s hi
    simp only [sectionLoop, Option.some.injEq, Prod.mk.injEq] at h
    rw [← h.1] at hi
    simp at hi
  | cons l ls ih =>
    intro known cur pre out k hpre hk hall hcur h i s hi
    rw [sectionLoop, parseSection_cmd] at h
    have next : ∀ (known' cur' : List SectInfo) (o : List SectInfo) (k' : List SectInfo) (c : SectInfo),
        (∀ p ∈ predefinedSections, p ∈ known') → (∀ s ∈ known', DescribedBy (pre ++ [l]) s) →
        (∀ l' ∈ pre ++ [l], ∀ n, Names n l' → ∃ s ∈ known', s.name = n) →
        (∀ s ∈ cur', DescribedBy (pre ++ [l]) s) → sectionLoop known' cur' ls = some (o, k') → c ∈ cur' →
        (c :: o)[i]? = some s → DescribedBy (pre ++ (l :: ls).take (i + 1)) s := by
      intro known' cur' o k' c g1 g2 g3 g4 g5 g6 g7
      cases i with
      | zero =>
        simp only [List.getElem?_cons_zero, Option.some.injEq] at g7
        subst g7
        simpa using g4 c g6
      | succ i =>
        rw [List.getElem?_cons_succ] at g7
        have := ih known' cur' (pre ++ [l]) o k' g1 g2 g3 g4 g5 i s g7
        simpa using this
    -- lines that name no section
    have quiet : (∀ n, ¬ Names n l) → (∀ l' ∈ pre ++ [l], ∀ n, Names n l' → ∃ s ∈ known, s.name = n) := by
      intro hq l' hl' n hn
      rw [List.mem_append, List.mem_singleton] at hl'
      rcases hl' with hl' | rfl
      · exact hall l' hl' n hn
      · exact absurd hn (hq n)
    have dup : ∀ (o : Option SectInfo), (∀ x, o = some x → DescribedBy (pre ++ [l]) x) → (∀ n, ¬ Names n l) →
        (match dupSection known o with
          | .fatal => none
          | .keep => (sectionLoop known cur ls).bind fun r => cur.head?.map fun c => (c :: r.1, r.2)
          | .change s known' => (sectionLoop known' (s :: cur) ls).map fun r => (s :: r.1, r.2)) = some (out, k) →
        DescribedBy (pre ++ (l :: ls).take (i + 1)) s := by
      intro o ho hq h
      cases o with
      | none => cases h
      | some x =>
        simp only [dupSection, Option.map_eq_some_iff] at h
        obtain ⟨⟨o, k'⟩, h1, h2⟩ := h
        simp only [Prod.mk.injEq] at h2
        rw [← h2.1] at hi
        refine next known (x :: cur) o k' x hpre (fun s hs => (hk s hs).mono _) (quiet hq) ?_ h1 (by simp) hi
        intro y hy
        rw [List.mem_cons] at hy
        rcases hy with rfl | hy
        · exact ho y rfl
        · exact (hcur y hy).mono _
    have psl : (firstTok l = lit ".section" ∨ firstTok l = lit ".pushsection") →
        (sectionLoop (parseSectionLine known l).2 ((parseSectionLine known l).1 :: cur) ls).map
          (fun r => ((parseSectionLine known l).1 :: r.1, r.2)) = some (out, k) →
        DescribedBy (pre ++ (l :: ls).take (i + 1)) s := by
      intro hw h
      obtain ⟨p1, p2, p3, p4⟩ := parseSectionLine_described known pre l hpre hk hall hw
      rw [Option.map_eq_some_iff] at h
      obtain ⟨⟨o, k'⟩, h1, h2⟩ := h
      simp only [Prod.mk.injEq] at h2
      rw [← h2.1] at hi
      refine next _ _ o k' _ (fun p hp => p2 p (hpre p hp)) p3 p4 ?_ h1 (by simp) hi
      intro y hy
      rw [List.mem_cons] at hy
      rcases hy with rfl | hy
      · exact p3 _ p1
      · exact (hcur y hy).mono _
    have nonames : ∀ c, sectCmd l = c → (∀ n, c ≠ .goto n) → (∀ n, c ≠ .push n) → ∀ n, ¬ Names n l := by
      intro c hc h1 h2 n hn
      rcases names_cmd hn with e | e
      · exact h1 n (hc ▸ e)
      · exact h2 n (hc ▸ e)
    generalize hcmd : sectCmd l = cmd at h
    cases cmd with
    | nothing =>
      simp only [stepCmd] at h
      rw [Option.bind_eq_some_iff] at h
      obtain ⟨⟨o, k'⟩, h1, h2⟩ := h
      rw [Option.map_eq_some_iff] at h2
      obtain ⟨c, h3, h4⟩ := h2
      simp only [Prod.mk.injEq] at h4
      rw [← h4.1] at hi
      exact next known cur o k' c hpre (fun s hs => (hk s hs).mono _)
        (quiet (nonames _ hcmd (by simp) (by simp))) (fun s hs => (hcur s hs).mono _) h1 (List.mem_of_head? h3) hi
    | goto n =>
      simp only [stepCmd] at h
      by_cases hs : firstTok l = lit ".section"
      · rw [if_pos hs] at h
        exact psl (Or.inl hs) h
      · rw [if_neg hs] at h
        refine dup _ (fun x hx => (hk x (findSection_name hx).2).mono _) ?_ h
        rintro n' ⟨h1 | h1, h2⟩
        · exact hs h1
        · rcases names_cmd (n := n') ⟨Or.inr h1, h2⟩ with e | e
          · have hne2 : lit ".pushsection" ≠ lit ".text" ∧ lit ".pushsection" ≠ lit ".data" ∧
              lit ".pushsection" ≠ lit ".bss" ∧ lit ".pushsection" ≠ lit ".section" := by decide +kernel
            unfold sectCmd at e
            dsimp only at e
            rw [if_neg (by rw [h1]; rintro (e | e | e) <;> simp [e] at hne2), if_neg hs, if_pos h1] at e
            cases e
          · rw [hcmd] at e; cases e
    | push n =>
      simp only [stepCmd] at h
      exact psl (Or.inr (sectCmd_push hcmd).1) h
    | pop =>
      simp only [stepCmd] at h
      exact dup _ (fun x hx => (hcur x (List.mem_of_mem_drop (List.mem_of_head? hx))).mono _)
        (nonames _ hcmd (by simp) (by simp)) h
    | previous =>
      simp only [stepCmd] at h
      exact dup _ (fun x hx => (hcur x (List.mem_of_mem_drop (List.mem_of_head? hx))).mono _)
        (nonames _ hcmd (by simp) (by simp)) h
    | subsection =>
      simp only [stepCmd] at h
      exact dup _ (fun x hx => (hcur x (List.mem_of_head? hx)).mono _)
        (nonames _ hcmd (by simp) (by simp)) h

theorem described_executable (first : List Byte) (lines : List (List Byte)) (out k : List SectInfo)
    (h : initSections predefinedSections (first :: lines) = some (out, k)) (i : Nat) (s : SectInfo)
    (hi : out[i]? = some s) :
    s ∈ predefinedSections ∨
    ((∀ p ∈ predefinedSections, p.name ≠ s.name) ∧
      ∃ (j : Nat) (line : List Byte), j < i ∧ lines[j]? = some line ∧ Names s.name line ∧
        (∀ j' < j, ∀ l', lines[j']? = some l' → ¬ Names s.name l') ∧ (s.exec = true ↔ HasXFlag line)) := by
  simp only [initSections] at h
  rw [Option.bind_eq_some_iff] at h
  obtain ⟨t, ht, h⟩ := h
  rw [Option.map_eq_some_iff] at h
  obtain ⟨⟨o, k'⟩, h1, h2⟩ := h
  simp only [Prod.mk.injEq] at h2
  rw [← h2.1] at hi
  have htp := (findSection_name ht).2
  cases i with
  | zero =>
    simp only [List.getElem?_cons_zero, Option.some.injEq] at hi
    exact Or.inl (hi ▸ htp)
  | succ i =>
    rw [List.getElem?_cons_succ] at hi
    have := sectionLoop_described lines predefinedSections [t] [] o k' (fun _ h => h) (fun s hs => Or.inl hs)
      (by simp) (fun x hx => by rw [List.mem_singleton] at hx; subst hx; exact Or.inl htp) h1 i s hi
    rw [List.nil_append] at this
    rcases this with this | ⟨g1, j, line, g2, g3, g4, g5⟩
    · exact Or.inl this
    · have hj : j < i + 1 := by
        have := (List.getElem?_eq_some_iff.mp g2).1
        rw [List.length_take] at this
        omega
      rw [List.getElem?_take_of_lt hj] at g2
      refine Or.inr ⟨g1, j, line, by omega, g2, g3, fun j' hj' l' hl' => g4 j' hj' l' ?_, g5⟩
      rw [List.getElem?_take_of_lt (by omega), hl']

/-- C61: the section recorded for a line is one of those known from the start, which are executable exactly if they are for
code, or it is executable exactly if the first directive of the file that names it has the flag `x`. -/
theorem C61_executable (first : List Byte) (lines : List (List Byte)) (out k : List SectInfo)
    (h : initSections predefinedSections (first :: lines) = some (out, k)) (i : Nat) (s : SectInfo)
    (hi : out[i]? = some s) :
    (s.name ∈ knownCode ∧ s.exec = true) ∨ (s.name ∈ knownData ∧ s.exec = false) ∨
    (s.name ∉ knownCode ∧ s.name ∉ knownData ∧
      ∃ (j : Nat) (line : List Byte), j < i ∧ lines[j]? = some line ∧ Names s.name line ∧
        (∀ j' < j, ∀ l', lines[j']? = some l' → ¬ Names s.name l') ∧ (s.exec = true ↔ HasXFlag line)) := by
  rcases described_executable first lines out k h i s hi with h | ⟨h1, h2⟩
  · have : ∀ s ∈ predefinedSections, (s.name ∈ knownCode ∧ s.exec = true) ∨ (s.name ∈ knownData ∧ s.exec = false) := by
      decide +kernel
    rcases this s h with h | h
    · exact Or.inl h
    · exact Or.inr (Or.inl h)
  · have : ∀ n ∈ knownCode ++ knownData, ∃ p ∈ predefinedSections, p.name = n := by decide +kernel
    refine Or.inr (Or.inr ⟨fun hc => ?_, fun hc => ?_, h2⟩)
    · obtain ⟨p, hp, e⟩ := this s.name (by simp [hc])
      exact h1 p hp e
    · obtain ⟨p, hp, e⟩ := this s.name (by simp [hc])
      exact h1 p hp e

/-- A file with a pushed section, a quoted name, a new executable section and `.previous`. -/
def exampleSections : List (List Byte) :=
  [[], lit "\t.file \"x.c\"", lit "\t.data", lit "\t.pushsection \"my-sect\", \"a\"", lit "\t.long 1", lit "\t.popsection",
   lit "\t.section .text.startup,\"ax\",@progbits", lit "main:", lit "\t.previous", lit "\t.long 2"]

end Target

section X86

attribute [local instance] x86Asm

example : (initSections predefinedSections exampleSections).map (fun r => r.1.map fun s => (s.name, s.exec)) =
    some [(lit ".text", true), (lit ".text", true), (lit ".data", false), (lit "my-sect", false), (lit "my-sect", false),
      (lit ".data", false), (lit ".text.startup", true), (lit ".text.startup", true), (lit ".data", false),
      (lit ".data", false)] := by decide +kernel

example : FlatCmds .nothing ((exampleSections.drop 1).map sectCmd) := by
  have : (exampleSections.drop 1).map sectCmd = [.nothing, .goto (lit ".data"), .push (lit "my-sect"), .nothing, .pop,
    .goto (lit ".text.startup"), .nothing, .previous, .nothing] := by decide +kernel
  rw [this]
  simp [FlatCmds]

/-- C61 does not hold with nested pushes: after the second pop the code is taken to be in the section popped. -/
theorem C61_violated_nested :
    let lines := [lit ".pushsection a", lit ".pushsection b", lit ".popsection", lit ".popsection", lit "nop"]
    (initSections predefinedSections ([] :: lines)).map (fun r => r.1.map (·.name)) =
      some [lit ".text", lit "a", lit "b", lit "a", lit "b", lit "b"] ∧
    asSections ⟨lit ".text", none, []⟩ (lines.map sectCmd) =
      [lit "a", lit "b", lit "a", lit ".text", lit ".text"] := by decide +kernel

/-- C61 does not hold with a section directive between push and pop. -/
theorem C61_violated_switch :
    let lines := [lit ".pushsection a", lit ".data", lit ".popsection", lit "nop"]
    (initSections predefinedSections ([] :: lines)).map (fun r => r.1.map (·.name)) =
      some [lit ".text", lit "a", lit ".data", lit "a", lit "a"] ∧
    asSections ⟨lit ".text", none, []⟩ (lines.map sectCmd) = [lit "a", lit ".data", lit ".text", lit ".text"] := by
  decide +kernel

/-- C61 does not hold for `.previous` after a pop. -/
theorem C61_violated_previous :
    let lines := [lit ".data", lit ".pushsection a", lit ".popsection", lit ".previous", lit "nop"]
    (initSections predefinedSections ([] :: lines)).map (fun r => r.1.map (·.name)) =
      some [lit ".text", lit ".data", lit "a", lit ".data", lit "a", lit "a"] ∧
    asSections ⟨lit ".text", none, []⟩ (lines.map sectCmd) =
      [lit ".data", lit "a", lit ".data", lit ".text", lit ".text"] := by decide +kernel

end X86

end Verif
