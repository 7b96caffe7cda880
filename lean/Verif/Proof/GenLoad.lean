import Verif.Proof.GenOthers
import Verif.Props.Cblock
import Verif.Props.Split
/-
What is known of the two files when they are read and divided into blocks.
-/
namespace Verif

variable [AsmTarget]

/-! ### Statements have the characters of their lines -/

theorem scanStmt_suffix (s : List Byte) (se : Option (List Byte)) (first : Bool) (n : Nat) (r : List Byte)
    (h : scanStmt s se first = .cut n (some r)) : ∃ e, se = some e ∧ r <:+ e := by
  match se with
  | none => rw [scanStmt] at h; simp at h
  | some e =>
    refine ⟨e, rfl, ?_⟩
    have hsub : ∀ x, (getToken (some e)).2 = some x → x <:+ e := by
      obtain ⟨s', h1, _, h3⟩ := getTokenD_sub delims (some e)
      intro x hx
      have := h3 x hx
      rcases h1 with h1 | h1
      · cases h1; exact this
      · rw [h1] at this
        exact this.trans List.nil_suffix
    rw [scanStmt] at h
    split at h
    rename_i t se' hg
    rw [hg] at hsub
    dsimp only at hsub
    split at h
    · cases h
    split at h
    · cases h
    · split at h
      · simp only [StmtEnd.cut.injEq] at h
        exact hsub r h.2
      · split at h
        · simp at h
        · rename_i e' _
          have hl := getTokenD_length delims (show (getTokenD delims (some e)).2 = some e' by
            rw [show getTokenD delims (some e) = _ from hg])
          split at h
          · simp only [StmtEnd.cut.injEq, Option.some.injEq] at h
            rw [← h.2]
            exact (List.drop_suffix _ _).trans (hsub _ rfl)
          · obtain ⟨e'', h1, h2⟩ := scanStmt_suffix s (some e') false n r h
            simp only [Option.some.injEq] at h1
            subst h1
            exact h2.trans (hsub _ rfl)
termination_by se.elim 0 (fun s => s.length + 1)
decreasing_by
  simp only [Option.elim_some]
  omega

theorem splitStmts_chars (s : List Byte) : ∀ p ∈ splitStmts s, ∀ c ∈ p.1, c ∈ s := by
  rw [splitStmts]
  split
  · simp
  · split
    · rename_i h
      intro p hp c hc
      rw [List.mem_singleton] at hp
      subst hp
      exact hc
    · rename_i n h
      intro p hp c hc
      rw [List.mem_singleton] at hp
      subst hp
      exact List.mem_of_mem_take hc
    · rename_i n r h
      obtain ⟨e, h1, h2⟩ := scanStmt_rest s (some s) true n r h
      obtain ⟨e', h3, h4⟩ := scanStmt_suffix s (some s) true n r h
      simp only [Option.some.injEq] at h1 h3
      subst h1
      subst h3
      intro p hp c hc
      rcases List.mem_cons.mp hp with rfl | hp
      · exact List.mem_of_mem_take hc
      · exact h4.subset (splitStmts_chars r p hp c hc)
termination_by s.length

theorem splitLine_chars (s : List Byte) : ∀ p ∈ splitLine s, ∀ c ∈ p.1, c ∈ s := by
  unfold splitLine
  split
  · exact splitStmts_chars s
  · intro p hp c hc
    rw [List.mem_singleton] at hp
    subst hp
    exact hc

theorem initMultilines_chars {lines : List (List Byte)} {st : List (List Byte × Nat)} (h : initMultilines lines = some st) :
    ∀ p ∈ st, ∃ l ∈ lines, ∀ c ∈ p.1, c ∈ l := by
  rw [splitLines_spec lines 0 0 64 st h]
  intro p hp
  rw [List.mem_flatten] at hp
  obtain ⟨x, hx, hp⟩ := hp
  obtain ⟨y, hy, rfl⟩ := List.mem_map.mp hx
  obtain ⟨q, hq, rfl⟩ := List.mem_map.mp hp
  refine ⟨y.1, ?_, fun c hc => splitLine_chars y.1 q hq c hc⟩
  obtain ⟨l, i⟩ := y
  exact (List.mem_zipIdx' hy).2 ▸ List.getElem_mem _

/-! ### Names -/

/-- The string has no NUL, and an empty name is the empty string. -/
def NZ (nm : Kpstr) : Prop := 0#8 ∉ nm.s ∧ (nm.l = 0 → nm.s = [])

theorem nz_text {nm : Kpstr} (h : NZ nm) : 0#8 ∉ nm.text := fun hc => h.1 (text_sub nm _ hc)

theorem getTokenD_zero (d : List Byte) (str : Option (List Byte)) (h : (getTokenD d str).1.l = 0) : (getTokenD d str).1.s = [] := by
  cases str with
  | none => rfl
  | some s =>
    by_cases he : atEnd (skipBlanks s) = true
    · rw [getTokenD_end _ _ he]
    · obtain ⟨b, t, r, _, ht, _, _, e, _⟩ := getTokenD_some d s (by simpa using he)
      rw [e] at h
      exact absurd (List.length_eq_zero_iff.mp h) ht

theorem nz_empty : NZ ⟨[], 0⟩ := by simp [NZ]

theorem getTokenD_nz {d : List Byte} {str : Option (List Byte)} (h : charsIn str (· ≠ 0#8)) : NZ (getTokenD d str).1 ∧
    charsIn (getTokenD d str).2 (· ≠ 0#8) := by
  have := getTokenD_chars (d := d) h
  exact ⟨⟨fun hc => this.1 _ hc rfl, getTokenD_zero d str⟩, this.2⟩

theorem charsIn_line {s : List Byte} (h : 0#8 ∉ s) : charsIn (some s) (· ≠ 0#8) := by
  intro s' e c hc hz
  cases e
  subst hz
  exact h hc

theorem symArg_nz {s : List Byte} (h : 0#8 ∉ s) : NZ (symArg s) := (getTokenD_nz (getTokenD_nz (charsIn_line h)).2).1
theorem getToken_nz {s : List Byte} (h : 0#8 ∉ s) : NZ (getToken (some s)).1 := (getTokenD_nz (charsIn_line h)).1
theorem attrName_nz {s : List Byte} (h : 0#8 ∉ s) : NZ (attrName s) :=
  ⟨(getToken_nz h).1, fun e => List.length_eq_zero_iff.mp e⟩

theorem funcStartLoop_nz : ∀ (ls : List Ln) (first func : Bool) (nm nm' : Kpstr), NZ nm → (∀ l ∈ ls, 0#8 ∉ l.text) →
    funcStartLoop first func nm ls = some (some nm') → NZ nm' := by
  intro ls
  induction ls with
  | nil =>
    intro first func nm nm' h _ hs
    simp only [funcStartLoop, Option.some.injEq] at hs
    split at hs
    · cases hs; exact h
    · cases hs
  | cons l r ih =>
    intro first func nm nm' h hl hs
    have hr : ∀ l ∈ r, 0#8 ∉ l.text := fun x hx => hl x (by simp [hx])
    rw [funcStartLoop] at hs
    have hend : ∀ f : Bool, (some (if f then some nm else none) : Option (Option Kpstr)) = some (some nm') → NZ nm' := by
      intro f hs
      cases f <;> simp at hs
      exact hs ▸ h
    split at hs
    · exact ih _ _ _ _ h hr hs
    split at hs
    · exact ih _ _ _ _ h hr hs
    split at hs
    · cases hs
    · dsimp only at hs
      split at hs
      · split at hs
        · cases hs
        · exact ih _ _ _ _ (symArg_nz (hl l (by simp))) hr hs
      · split at hs
        · exact ih _ _ _ _ h hr hs
        · exact hend _ hs

theorem varStartLoop_nz : ∀ (ls : List Ln) (first globl : Bool) (nm nm' : Kpstr) (n m : Nat) (g : Option Bool), NZ nm →
    (∀ l ∈ ls, 0#8 ∉ l.text) → varStartLoop first globl nm n ls = some (some (m, g, nm')) → NZ nm' := by
  intro ls
  induction ls with
  | nil => intro _ _ _ _ _ _ _ _ _ h; cases h
  | cons l r ih =>
    intro first globl nm nm' n m g h hl hs
    have hr : ∀ l ∈ r, 0#8 ∉ l.text := fun x hx => hl x (by simp [hx])
    have hlz := hl l (by simp)
    have next : ∀ (gl : Bool) (x : Kpstr), NZ x → varStartLoop false gl x (n + 1) r = some (some (m, g, nm')) → NZ nm' := by
      intro gl x hx h
      exact ih _ _ _ _ _ _ _ hx hr h
    rw [varStartLoop] at hs
    split at hs
    · exact next _ _ h hs
    split at hs
    · exact next _ _ h hs
    dsimp only at hs
    generalize hn2 : (if l.dir = .type ∨ l.dir = .globl ∨ l.dir = .lcl then some (symArg l.text)
        else if l.dir = .label then some (getToken (some l.text)).1 else none) = nm2 at hs
    have hok : NZ (nm2.getD nm) := by
      rw [← hn2]
      split
      · exact symArg_nz hlz
      · split
        · exact getToken_nz hlz
        · exact h
    have found : some (some (n + 1, some globl, nm2.getD nm)) = some (some (m, g, nm')) → NZ nm' := by
      intro e
      simp only [Option.some.injEq, Prod.mk.injEq] at e
      obtain ⟨rfl, rfl, rfl⟩ := e
      exact hok
    split at hs
    · cases hs
    split at hs
    all_goals first
      | exact next _ _ hok hs
      | exact found hs
      | cases hs; done
      | skip
    · split at hs
      · cases hs
      · cases hs
      · split at hs
        · cases hs
        · exact next _ _ hok hs
    · split at hs
      · cases hs
      · exact next _ _ hok hs
    · split at hs
      · cases hs
      · exact next _ _ hok hs
    · split at hs
      · cases hs
      · exact found hs
    · split at hs
      · simp only [Option.some.injEq, Prod.mk.injEq] at hs
        obtain ⟨rfl, rfl, rfl⟩ := hs
        exact symArg_nz hlz
      · cases hs

theorem funcScan_nz : ∀ (ls : List Ln) (nm : Kpstr) (c : Int) (r : FuncScan), (∀ l ∈ ls, 0#8 ∉ l.text) → funcScan nm c ls = some r →
    ∀ l ∈ r.seen, 0#8 ∉ l.text := by
  intro ls
  induction ls with
  | nil => intro nm c r _ h; cases h; simp
  | cons l ls ih =>
    intro nm c r hl h
    cases ls with
    | nil => cases h; simp
    | cons l2 ls =>
      rw [funcScan] at h
      dsimp only at h
      have hl' : 0#8 ∉ (if l.dir = .kpflags then { l with text := [] } else l : Ln).text := by
        split
        · simp
        · exact hl l (by simp)
      generalize (if l.dir = .kpflags then { l with text := [] } else l : Ln) = l' at h hl'
      split at h
      · cases h
      · rename_i b _
        generalize (if b = true then c + 1 else c) = c' at h
        split at h
        · cases h
          intro x hx
          rw [List.mem_singleton] at hx
          subst hx
          exact hl'
        · rw [Option.map_eq_some_iff] at h
          obtain ⟨x, hx, rfl⟩ := h
          intro y hy
          rcases List.mem_cons.mp hy with rfl | hy
          · exact hl'
          · exact ih _ _ _ (fun z hz => hl z (by simp [hz])) hx y hy

/-- Names and lines of a file while it is divided. -/
structure NmInv (st : CbState) : Prop where
  lines : ∀ l ∈ st.ls, 0#8 ∉ l.text
  names : ∀ b ∈ st.bs, NZ b.name
  other : ∀ b ∈ st.bs, b.ty = .other → b.name = ⟨[], 0⟩
  attr : ∀ b ∈ st.bs, b.ty = .attr → b.name.text ≠ []

theorem NmInv.add {st : CbState} (h : NmInv st) {b : Cblock} {bs : List Cblock} {ls : List Ln} {i : Nat} (ha : cblockAdd st.bs b = some bs)
    (hl : ∀ l ∈ ls, 0#8 ∉ l.text) (hn : NZ b.name) (ho : b.ty = .other → b.name = ⟨[], 0⟩) (hat : b.ty = .attr → b.name.text ≠ []) :
    NmInv ⟨ls, bs, i⟩ := by
  unfold cblockAdd at ha
  split at ha
  · cases ha
  cases ha
  have key : ∀ {Q : Cblock → Prop}, (∀ x ∈ st.bs, Q x) → Q b → ∀ x ∈ st.bs ++ [b], Q x := by
    intro Q h1 h2 x hx
    rcases List.mem_append.mp hx with hx | hx
    · exact h1 x hx
    · rw [List.mem_singleton] at hx; subst hx; exact h2
  exact ⟨hl, key h.names hn, key h.other ho, key h.attr hat⟩

theorem cblockStep_nm {ls0 : List Ln} {st st' : CbState} {l : Ln} (hdir : ∀ l ∈ ls0, l.dir = parseCtype l.text) (h : CbInv ls0 st)
    (hn : NmInv st) (hl : st.ls[st.i]? = some l) (hs : cblockStep st l = some st') : NmInv st' := by
  have hl0 : ls0[st.i]? = some l := by rw [← hl]; exact (getElem?_of_drop_eq h.tail).symm
  have hmem : l ∈ st.ls := List.mem_of_getElem? hl
  have hz := hn.lines l hmem
  have hdrop : ∀ k, ∀ l ∈ st.ls.drop k, 0#8 ∉ l.text := fun k l hl => hn.lines l (List.mem_of_mem_drop hl)
  unfold cblockStep at hs
  split at hs
  · cases hs; exact ⟨hn.lines, hn.names, hn.other, hn.attr⟩
  split at hs
  · cases hs
  · rename_i nm hf
    unfold initFuncBlock at hs
    rw [Option.bind_eq_some_iff] at hs
    obtain ⟨r, h1, h2⟩ := hs
    dsimp only at h2
    rw [Option.map_eq_some_iff] at h2
    obtain ⟨bs, h3, rfl⟩ := h2
    refine hn.add h3 (fun x hx => ?_) (funcStartLoop_nz _ _ _ _ _ nz_empty (hdrop _) hf) (fun e => by cases e) fun e => by cases e
    rcases List.mem_append.mp hx with hx | hx
    · rcases List.mem_append.mp hx with hx | hx
      · exact hn.lines x (List.mem_of_mem_take hx)
      · exact funcScan_nz _ _ _ _ (hdrop _) h1 x hx
    · exact hdrop _ x hx
  · split at hs
    · cases hs
    · rename_i n g nm hv
      unfold initVarBlock at hs
      rw [Option.bind_eq_some_iff] at hs
      obtain ⟨r, h1, h2⟩ := hs
      rw [Option.map_eq_some_iff] at h2
      obtain ⟨bs, h3, rfl⟩ := h2
      exact hn.add h3 hn.lines (varStartLoop_nz _ _ _ _ _ _ _ _ nz_empty (hdrop _) hv) (fun e => by cases e) fun e => by cases e
    · split at hs
      · unfold initSetBlock at hs
        rw [Option.map_eq_some_iff] at hs
        obtain ⟨bs, h3, rfl⟩ := hs
        exact hn.add h3 hn.lines (symArg_nz hz) (fun e => by cases e) fun e => by cases e
      split at hs
      · rename_i hd
        have ht := attr_tok (hdir l (List.mem_of_getElem? hl0)) hd.symm
        unfold initAttrBlock at hs
        dsimp only at hs
        split at hs
        · cases hs; exact ⟨hn.lines, hn.names, hn.other, hn.attr⟩
        · rw [Option.map_eq_some_iff] at hs
          obtain ⟨bs, h3, rfl⟩ := hs
          refine hn.add h3 hn.lines (attrName_nz hz) (fun e => by cases e) fun _ => ?_
          have hne : ∀ d ∈ [lit ".globl", lit ".global", lit ".weak"], d ≠ [] := by decide +kernel
          have h1 : firstTok l.text ≠ [] := hne _ ht
          intro e
          apply h1
          unfold firstTok Kpstr.text
          unfold attrName Kpstr.text at e
          dsimp only at e
          rw [List.take_length] at e
          rw [e]; exact List.take_nil
      · unfold initOtherBlock at hs
        rw [Option.bind_eq_some_iff] at hs
        obtain ⟨⟨n, flag⟩, h1, h2⟩ := hs
        dsimp only at h2
        split at h2
        · cases h2
          have key : ∀ x ∈ extendLast st.bs (st.i + n), ∃ y ∈ st.bs, x.name = y.name ∧ x.ty = y.ty := by
            intro x hx
            unfold extendLast at hx
            split at hx
            · exact ⟨x, hx, rfl, rfl⟩
            · rename_i b hb
              rcases List.mem_append.mp hx with hx | hx
              · exact ⟨x, List.dropLast_subset _ hx, rfl, rfl⟩
              · rw [List.mem_singleton] at hx
                subst hx
                exact ⟨b, List.mem_of_getLast? hb, rfl, rfl⟩
          refine ⟨hn.lines, fun x hx => ?_, fun x hx e => ?_, fun x hx e => ?_⟩
          all_goals obtain ⟨y, hy, e1, e2⟩ := key x hx
          · rw [e1]; exact hn.names y hy
          · rw [e1]; exact hn.other y hy (e2 ▸ e)
          · rw [e1]; exact hn.attr y hy (e2 ▸ e)
        · rw [Option.map_eq_some_iff] at h2
          obtain ⟨bs, h3, rfl⟩ := h2
          exact hn.add h3 hn.lines nz_empty (fun _ => rfl) fun e => by cases e
        · rw [Option.bind_eq_some_iff] at h2
          obtain ⟨m, h3, h4⟩ := h2
          rw [Option.map_eq_some_iff] at h4
          obtain ⟨bs, h5, rfl⟩ := h4
          exact hn.add h5 hn.lines nz_empty (fun _ => rfl) fun e => by cases e

theorem cblocksLoop_nm {ls0 : List Ln} (hdir : ∀ l ∈ ls0, l.dir = parseCtype l.text) :
    ∀ (fuel : Nat) (st st' : CbState), CbInv ls0 st → NmInv st → cblocksLoop fuel st = some st' → NmInv st' := by
  intro fuel
  induction fuel with
  | zero => intro st st' _ h hs; cases hs; exact h
  | succ fuel ih =>
    intro st st' hc h hs
    rw [cblocksLoop] at hs
    split at hs
    · cases hs; exact h
    · rename_i l hl
      rw [Option.bind_eq_some_iff] at hs
      obtain ⟨st1, h1, h2⟩ := hs
      exact ih st1 st' (cblockStep_inv hdir hc hl h1).1 (cblockStep_nm hdir hc h hl h1) h2

theorem cutDigits_le (s : List Byte) : ∀ n, cutDigits s n ≤ n := by
  intro n
  induction n with
  | zero => exact Nat.le_refl _
  | succ n ih => rw [cutDigits]; split <;> omega

theorem cutDigits_pos {s : List Byte} (h : isDigitChar (s.getD 0 0) = false) : ∀ n, 0 < n → 0 < cutDigits s n := by
  intro n
  induction n with
  | zero => intro h; exact absurd h (by omega)
  | succ n ih =>
    intro _
    rw [cutDigits]
    split
    · rename_i hd
      cases n with
      | zero => rw [h] at hd; cases hd
      | succ n => exact ih (by omega)
    · omega

theorem getTokenD_okD (d : List Byte) (str : Option (List Byte)) : (getTokenD d str).1.Ok := by
  unfold getTokenD Kpstr.Ok
  split
  · simp
  · dsimp only
    split
    · simp
    · dsimp only
      omega

theorem humanName_ok {nm : Kpstr} (h : nm.Ok) : (humanName nm).Ok := by
  unfold humanName
  dsimp only
  split
  · exact getTokenD_okD _ _
  · split
    · have := cutDigits_le nm.s nm.l
      unfold Kpstr.Ok at *
      dsimp only
      omega
    · exact h

/-- A symbol with a name has a base name. -/
theorem humanName_ne {nm : Kpstr} (ho : nm.Ok) (hn : nm.text ≠ []) : (humanName nm).text ≠ [] := by
  unfold humanName
  dsimp only
  split
  · rename_i h1
    by_cases he : atEnd (skipBlanks nm.s) = true
    · rw [getTokenD_end _ _ he] at h1; exact absurd rfl h1.1
    · obtain ⟨b, t, r, _, ht, _, _, e, _⟩ := getTokenD_some humanDelims nm.s (by simpa using he)
      rw [e]
      simpa [Kpstr.text] using ht
  · split
    · rename_i h1
      have hp := (C41_prefix nm ho (lit "__mod_")).mp h1.1
      have hs : nm.s.getD 0 0 = 95#8 := by
        obtain ⟨t, ht⟩ := hp
        have h2 : nm.text.getD 0 0 = 95#8 := by
          rw [← ht]
          rw [show lit "__mod_" = 95#8 :: lit "_mod_" by decide +kernel]
          rfl
        unfold Kpstr.text at h2 hn
        cases hss : nm.s with
        | nil => rw [hss] at hn; simp at hn
        | cons c r =>
          rw [hss] at h2
          cases hl : nm.l with
          | zero => rw [hl] at hn; simp at hn
          | succ k => rw [hl] at h2; simpa using h2
      have := cutDigits_pos (s := nm.s) (by rw [hs]; decide) nm.l h1.2.1
      intro e
      unfold Kpstr.text at e
      rw [List.take_eq_nil_iff] at e
      rcases e with e | e
      · dsimp only at e; omega
      · dsimp only at e; rw [e] at hs; simp at hs
    · exact hn

/-! ### Files -/

structure FileOk (f : GFile) : Prop where
  order : InOrder f
  ok : ∀ b ∈ f.bs, b.name.Ok ∧ b.human.Ok ∧ 0#8 ∉ b.name.text
  nz : ∀ l ∈ f.ls, 0#8 ∉ l.text
  uniq : ∀ b ∈ f.bs, ∀ c ∈ f.bs, b.name.text = c.name.text → b.name.text ≠ [] → b = c
  other : ∀ b ∈ f.bs, b.ty = .other → b.name.text = [] ∧ b.human.text = []
  attr : ∀ b ∈ f.bs, b.ty = .attr → b.name.text ≠ []
  human : ∀ b ∈ f.bs, b.name.text ≠ [] ↔ b.human.text ≠ []
  fresh : ∀ b ∈ f.bs, b.pair = none ∧ b.ignore = false ∧ b.unlink = false
  ren : f.ren = .nil

theorem loadGFile_ok {known k : List SectInfo} {i : GenInput} {f : GFile} (hi : i.IsText) (h : loadGFile known i = some (f, k)) :
    FileOk f := by
  unfold loadGFile at h
  rw [Option.bind_eq_some_iff] at h
  obtain ⟨st, h1, h⟩ := h
  rw [Option.bind_eq_some_iff] at h
  obtain ⟨⟨ls, k'⟩, h2, h⟩ := h
  dsimp only at h
  rw [Option.map_eq_some_iff] at h
  obtain ⟨cb, h3, h⟩ := h
  simp only [Prod.mk.injEq] at h
  obtain ⟨rfl, rfl⟩ := h
  have hdir := makeLines_dir h2
  have hlz : ∀ l ∈ ls, 0#8 ∉ l.text := by
    unfold makeLines at h2
    rw [Option.map_eq_some_iff] at h2
    obtain ⟨r, _, h2⟩ := h2
    simp only [Prod.mk.injEq] at h2
    rw [← h2.1]
    intro l hl
    obtain ⟨⟨a, b⟩, hx, rfl⟩ := List.mem_map.mp hl
    obtain ⟨p, hp, e⟩ := List.mem_map.mp (List.of_mem_zip hx).1
    obtain ⟨q, hq, hsub⟩ := initMultilines_chars h1 p hp
    intro hc
    dsimp only at hc
    rw [← e] at hc
    have := hsub _ hc
    rcases List.mem_cons.mp hq with rfl | hq
    · cases this
    · exact hi q hq this
  have hcb : cb.bs = [] ∨ (CbInv ls cb ∧ NmInv cb) := by
    by_cases hne : ls = []
    · subst hne
      left
      cases h3
      rfl
    · right
      have hpos : 0 < ls.length := List.length_pos_iff.mpr hne
      have h0 : CbInv ls ⟨ls, [], 1⟩ := ⟨rfl, rfl, Nat.le_refl _, hpos, by simp, by simp, by simp, by simp,
        fun k l h1 h2 => absurd h2 (by dsimp only; omega)⟩
      exact ⟨(cblocksLoop_inv hdir ls.length _ cb h0 (by omega) h3).1,
        cblocksLoop_nm hdir ls.length _ cb h0 ⟨hlz, by simp, by simp, by simp⟩ h3⟩
  have hnz : ∀ l ∈ cb.ls, 0#8 ∉ l.text := by
    by_cases hne : ls = []
    · subst hne
      cases h3
      simp
    · have hpos : 0 < ls.length := List.length_pos_iff.mpr hne
      have h0 : CbInv ls ⟨ls, [], 1⟩ := ⟨rfl, rfl, Nat.le_refl _, hpos, by simp, by simp, by simp, by simp,
        fun k l h1 h2 => absurd h2 (by dsimp only; omega)⟩
      exact (cblocksLoop_nm hdir ls.length _ cb h0 ⟨hlz, by simp, by simp, by simp⟩ h3).lines
  rcases hcb with he | ⟨hc, hn⟩
  · refine ⟨⟨?_, ?_⟩, ?_, hnz, ?_, ?_, ?_, ?_, ?_, rfl⟩ <;> simp [he]
  · have hm : ∀ {Q : GBlock → Prop}, (∀ c ∈ cb.bs, Q (GBlock.new c)) → ∀ b ∈ cb.bs.map GBlock.new, Q b := by
      intro Q hq b hb
      obtain ⟨c, hc, rfl⟩ := List.mem_map.mp hb
      exact hq c hc
    refine ⟨⟨?_, hm fun c hc' => ?_⟩, hm fun c hc' => ⟨hc.ok c hc', humanName_ok (hc.ok c hc'), nz_text (hn.names c hc')⟩, hnz, ?_,
      hm fun c hc' ht => ?_, hm fun c hc' ht => hn.attr c hc' ht, hm fun c hc' => ⟨fun ht => humanName_ne (hc.ok c hc') ht, fun ht e => ht ?_⟩,
      hm fun c hc' => ⟨rfl, rfl, rfl⟩, rfl⟩
    · dsimp only
      rw [List.pairwise_map]
      exact hc.sorted
    · exact (hc.bounds c hc').2.1
    · intro b hb c hc2 e hne
      obtain ⟨x, hx, rfl⟩ := List.mem_map.mp hb
      obtain ⟨y, hy, rfl⟩ := List.mem_map.mp hc2
      have e : x.name.text = y.name.text := e
      have hne : x.name.text ≠ [] := hne
      obtain ⟨p, hp⟩ := List.getElem?_of_mem hx
      obtain ⟨q, hq⟩ := List.getElem?_of_mem hy
      obtain ⟨hp1, hp2⟩ := List.getElem?_eq_some_iff.mp hp
      obtain ⟨hq1, hq2⟩ := List.getElem?_eq_some_iff.mp hq
      have hl : ∀ z : Cblock, z.name.text ≠ [] → z.name.l ≠ 0 := by
        rintro z hz e; apply hz; simp [Kpstr.text, e]
      rcases Nat.lt_trichotomy p q with hpq | rfl | hpq
      · have := List.pairwise_iff_getElem.mp hc.names p q hp1 hq1 hpq
        rw [hp2, hq2] at this
        exact absurd ((kpstrcmp_zero (hc.ok x hx) (hc.ok y hy)).mpr e) (this (hl y (e ▸ hne)))
      · rw [hp] at hq; cases hq; rfl
      · have := List.pairwise_iff_getElem.mp hc.names q p hq1 hp1 hpq
        rw [hp2, hq2] at this
        exact absurd ((kpstrcmp_zero (hc.ok y hy) (hc.ok x hx)).mpr e.symm) (this (hl x hne))
    · have : c.name = ⟨[], 0⟩ := hn.other c hc' ht
      unfold GBlock.new
      dsimp only
      rw [this]
      decide +kernel
    · have h1 := hc.ok c hc'
      have h2 := (hn.names c hc').2
      have e : c.name.text = [] := e
      have h3 : c.name.s = [] := by
        unfold Kpstr.text at e
        rcases List.take_eq_nil_iff.mp e with e | e
        · exact h2 e
        · exact e
      have h4 : c.name = ⟨[], 0⟩ := by
        unfold Kpstr.Ok at h1
        rw [h3] at h1
        cases hq : c.name with
        | mk q1 q2 =>
          rw [hq] at h1 h3
          dsimp only at h1 h3
          subst h3
          simp only [List.length_nil, Nat.le_zero] at h1
          rw [h1]
      show (humanName c.name).text = []
      rw [h4]
      decide +kernel

theorem loadBoth_ok {i0 i1 : GenInput} {L : GSt} (h0 : i0.IsText) (h1 : i1.IsText) (h : loadBoth i0 i1 = some L) :
    FileOk L.f0 ∧ FileOk L.f1 := by
  unfold loadBoth at h
  rw [Option.bind_eq_some_iff] at h
  obtain ⟨⟨f0, k⟩, e0, h⟩ := h
  dsimp only at h
  rw [Option.map_eq_some_iff] at h
  obtain ⟨⟨f1, k1⟩, e1, rfl⟩ := h
  exact ⟨loadGFile_ok h0 e0, loadGFile_ok h1 e1⟩

/-- The state of the analysis before it starts. -/
def AnSt.init : AnSt := ⟨fun _ => none, fun _ => none, noFlag, noFlag, .nil, .nil⟩

theorem dec_init {f : GFile} (h : FileOk f) : f.dec (fun _ => none) noFlag noFlag .nil = f := by
  unfold GFile.dec
  have : f.bs.map (GBlock.dec (fun _ => none) noFlag noFlag) = f.bs := by
    conv => rhs; rw [← List.map_id f.bs]
    apply List.map_congr_left
    intro b hb
    obtain ⟨h1, h2, h3⟩ := h.fresh b hb
    unfold GBlock.dec noFlag
    cases b
    dsimp only at *
    subst h1; subst h2; subst h3
    rfl
  rw [this, ← h.ren]

theorem init_st {L : GSt} (h0 : FileOk L.f0) (h1 : FileOk L.f1) : AnSt.init.st L = L := by
  unfold AnSt.st AnSt.init
  dsimp only
  rw [dec_init h0, dec_init h1]

theorem lok_of {L : GSt} (h0 : FileOk L.f0) (h1 : FileOk L.f1) : LOk L :=
  ⟨h0.order.starts, h1.order.starts, h0.ok, h1.ok, h0.nz, h1.nz, h0.uniq, h1.uniq⟩

theorem init_inv (L : GSt) : Inv L AnSt.init := by
  refine ⟨renOk_nil, renOk_nil, fun x y e => ?_, fun x y e => ?_, fun b1 _ p e => (by cases e), fun b0 _ q e => (by cases e), fun b0 _ q e => by cases e⟩
  · rw [show AnSt.init.r0 = .nil from rfl, mapOf_nil] at e; cases e
  · rw [show AnSt.init.r1 = .nil from rfl, mapOf_nil] at e; cases e

/-- What the analysis finds. -/
theorem analyze_ok {o : GenOpts} {L s : GSt} (h0 : FileOk L.f0) (h1 : FileOk L.f1) (h : analyze o L = some s) :
    ∃ a, Analysed o L a ∧ analyzeOthers o (a.st L) = some s ∧ (analyzeVars o L).bind (analyzeFuncs o) = some (a.st L) := by
  have hL := lok_of h0 h1
  unfold analyze at h
  rw [Option.bind_eq_some_iff] at h
  obtain ⟨s1, e1, h⟩ := h
  rw [Option.bind_eq_some_iff] at h
  obtain ⟨s2, e2, h⟩ := h
  have e1' := e1
  rw [← init_st h0 h1] at e1
  obtain ⟨a1, rfl, hi, hr, hv, hk⟩ := analyzeVars_inv hL (init_inv L) e1
  have e2' := e2
  obtain ⟨a2, rfl, ha⟩ := analyzeFuncs_inv hL hi (hr.I) (hr.U) (fun b0 hb ht => hr.others b0 hb ht) hv hk e2
  exact ⟨a2, ha, h, by rw [e1', Option.bind_some, e2']⟩

theorem mayVanish_eq (b : GBlock) (h : b.name.Ok) : mayVanish b = compilerName b.name.text := by
  unfold mayVanish compilerName
  have : (fun p => decide (kpstrncmpz b.name p = 0)) = fun p => p.isPrefixOf b.name.text := by
    funext p
    rw [Bool.eq_iff_iff, decide_eq_true_eq, C41_prefix b.name h, List.isPrefixOf_iff_prefix]
  rw [this]
  rfl

end Verif
