import Verif.Spec.GenOut
import Verif.Props.Cblock
/-
The output of the generator, piece by piece.
-/
namespace Verif

variable [AsmTarget]

/-! ### Folds -/

theorem foldlM_rec {β σ : Type} (f : σ → β → Option σ) (P : List β → σ → Prop) :
    ∀ (l pre : List β) (s s' : σ), P pre s →
      (∀ pre x s s', x ∈ l → P pre s → f s x = some s' → P (pre ++ [x]) s') → l.foldlM f s = some s' → P (pre ++ l) s' := by
  intro l
  induction l with
  | nil =>
    intro pre s s' h0 _ h
    simp only [List.foldlM_nil, Option.pure_def, Option.some.injEq] at h
    subst h
    simpa using h0
  | cons x l ih =>
    intro pre s s' h0 hstep h
    rw [List.foldlM_cons] at h
    cases hx : f s x with
    | none => rw [hx] at h; simp at h
    | some s1 =>
      rw [hx] at h
      have := ih (pre ++ [x]) s1 s' (hstep pre x s s1 (by simp) h0 hx)
        (fun pre y s s' hy => hstep pre y s s' (by simp [hy])) h
      simpa using this

/-- An invariant of a fold. -/
theorem foldlM_inv {β σ : Type} {f : σ → β → Option σ} (P : σ → Prop) {l : List β} {s s' : σ} (h0 : P s)
    (hstep : ∀ x s s', x ∈ l → P s → f s x = some s' → P s') (h : l.foldlM f s = some s') : P s' :=
  foldlM_rec f (fun _ s => P s) l [] s s' h0 (fun _ x s s' hx => hstep x s s' hx) h

/-! ### Lines -/

theorem stmtSep_eq {f : GFile} {i : Nat} {s sep : List Byte}
    (h : stmtSep s (f.nums.getD i 0) (f.nums.getD (i + 1) 0) = some sep) : sep = f.sepAt s i := by
  unfold stmtSep at h
  unfold GFile.sepAt
  split at h
  · rename_i hn
    rw [if_pos hn]
    cases h; rfl
  · rename_i hn
    rw [if_neg hn]
    split at h
    · cases h
    · split at h
      · rename_i hl
        rw [if_pos hl]; cases h; rfl
      · rename_i hl
        rw [if_neg hl]; cases h; rfl

theorem writeLine_some {f : GFile} {new : Bool} {fl : WFlags} {i : Nat} {o : Out} (h : writeLine f new fl i = some o) :
    ∃ s, lineText f fl (f.textAt i) = some s ∧ o = .line new i s (f.sepAt s i) := by
  unfold writeLine at h
  split at h
  · cases h
  · rename_i l hl
    rw [Option.bind_eq_some_iff] at h
    obtain ⟨s, h1, h2⟩ := h
    rw [Option.map_eq_some_iff] at h2
    obtain ⟨sep, h2, h3⟩ := h2
    refine ⟨s, ?_, ?_⟩
    · simpa [GFile.textAt, hl] using h1
    · rw [← h3, stmtSep_eq h2]

theorem mapM_some {α β : Type} {f : α → Option β} : ∀ {l : List α} {r : List β}, l.mapM f = some r →
    l.filterMap f = r ∧ ∀ x ∈ l, (f x).isSome := by
  intro l
  induction l with
  | nil => intro r h; simp at h; simp [h]
  | cons a l ih =>
    intro r h
    rw [List.mapM_cons] at h
    cases ha : f a with
    | none => rw [ha] at h; simp at h
    | some b =>
      rw [ha] at h
      cases hl : l.mapM f with
      | none => rw [hl] at h; simp at h
      | some bs =>
        rw [hl] at h
        simp only [Option.pure_def, Option.bind_eq_bind, Option.bind_some, Option.some.injEq] at h
        obtain ⟨h1, h2⟩ := ih hl
        subst h
        refine ⟨by rw [List.filterMap_cons_some ha, h1], fun x hx => ?_⟩
        rcases List.mem_cons.mp hx with rfl | hx
        · simp [ha]
        · exact h2 x hx

theorem filterMap_map_of {α β : Type} {f : α → Option β} {g : α → β} : ∀ {l : List α}, (∀ x ∈ l, f x = some (g x)) →
    l.filterMap f = l.map g := by
  intro l
  induction l with
  | nil => intro _; rfl
  | cons a l ih =>
    intro h
    rw [List.filterMap_cons_some (h a (by simp)), List.map_cons, ih fun x hx => h x (by simp [hx])]

theorem writeBlock_plain {f : GFile} {new : Bool} {b : GBlock} {o : List Out}
    (h : writeBlock f new ⟨false, false⟩ b = some o) : o = verbatim f new b := by
  unfold writeBlock at h
  obtain ⟨h1, h2⟩ := mapM_some h
  rw [← h1]
  apply filterMap_map_of
  intro i hi
  have := h2 i hi
  rw [Option.isSome_iff_exists] at this
  obtain ⟨x, hx⟩ := this
  obtain ⟨s, h3, h4⟩ := writeLine_some hx
  rw [hx, h4]
  simp [lineText] at h3
  rw [h3]

theorem linesOf_append (n : Bool) (a b : List Out) : linesOf n (a ++ b) = linesOf n a ++ linesOf n b := List.filter_append ..
theorem recordsOf_append (a b : List Out) : recordsOf (a ++ b) = recordsOf a ++ recordsOf b := List.filterMap_append

theorem linesOf_verbatim (f : GFile) (n : Bool) (b : GBlock) : linesOf n (verbatim f n b) = verbatim f n b := by
  unfold linesOf verbatim
  rw [List.filter_eq_self]
  intro x hx
  obtain ⟨i, _, rfl⟩ := List.mem_map.mp hx
  simp [Out.isLine]

theorem linesOf_verbatim' (f : GFile) (n : Bool) (b : GBlock) : linesOf (!n) (verbatim f n b) = [] := by
  unfold linesOf verbatim
  rw [List.filter_eq_nil_iff]
  intro x hx
  obtain ⟨i, _, rfl⟩ := List.mem_map.mp hx
  cases n <;> simp [Out.isLine]

theorem recordsOf_verbatim (f : GFile) (n : Bool) (b : GBlock) : recordsOf (verbatim f n b) = [] := by
  unfold recordsOf verbatim
  rw [List.filterMap_eq_nil_iff]
  intro x hx
  obtain ⟨i, _, rfl⟩ := List.mem_map.mp hx
  rfl

theorem range_mem {b : GBlock} {i : Nat} : i ∈ b.range ↔ b.start ≤ i ∧ i < b.stop := by
  unfold GBlock.range
  simp only [List.mem_map, List.mem_range]
  constructor
  · rintro ⟨k, hk, rfl⟩; omega
  · intro h; exact ⟨i - b.start, by omega, by omega⟩

/-! ### States of the output: `Ext g g' x` says that `x` has been written between them, and that the files are the same. -/

structure Ext (g g' : GenSt) (x : List Out) : Prop where
  s : g'.s = g.s
  out : g'.out = g.out ++ x
  nsyms : g'.nsyms = g.nsyms + (recordsOf x).length
  nrs : (recordsOf x).map (·.nr) = List.range' (g.nsyms + 1) (recordsOf x).length

theorem Ext.refl (g : GenSt) : Ext g g [] := ⟨rfl, by simp, by simp [recordsOf], by simp [recordsOf]⟩

theorem Ext.trans {g1 g2 g3 : GenSt} {x y : List Out} (h : Ext g1 g2 x) (h' : Ext g2 g3 y) : Ext g1 g3 (x ++ y) := by
  refine ⟨h'.s.trans h.s, by rw [h'.out, h.out, List.append_assoc], ?_, ?_⟩
  · rw [h'.nsyms, h.nsyms, recordsOf_append, List.length_append]; omega
  · rw [recordsOf_append, List.map_append, h.nrs, h'.nrs, h.nsyms, List.length_append, ← List.range'_append_1,
      Nat.add_right_comm]

theorem ext_emit (g : GenSt) (x : List Out) (h : recordsOf x = []) : Ext g (g.emit x) x :=
  ⟨rfl, rfl, by simp [h, GenSt.emit], by simp [h]⟩

theorem ext_handled {g g' : GenSt} {x : List Out} (h : Ext g g' x) (n : Bool) (p : Nat) : Ext g (g'.handled n p) x := by
  unfold GenSt.handled
  split <;> exact ⟨h.s, h.out, h.nsyms, h.nrs⟩

theorem ext_handledOpt {g g' : GenSt} {x : List Out} (h : Ext g g' x) (n : Bool) (p : Option Nat) :
    Ext g (g'.handledOpt n p) x := by
  unfold GenSt.handledOpt
  split
  · exact ext_handled h n _
  · exact h

/-! ### The pieces -/

theorem writeOther_ext {g g' : GenSt} {b : GBlock} (h : writeOther g b = some g') : Ext g g' (verbatim g.s.f1 true b) := by
  unfold writeOther at h
  rw [Option.map_eq_some_iff] at h
  obtain ⟨o, h1, rfl⟩ := h
  rw [writeBlock_plain h1]
  exact ext_handledOpt (ext_handled (ext_emit _ _ (recordsOf_verbatim ..)) _ _) _ _

theorem changeSection_ext (g : GenSt) (sect : SectInfo) (push : Bool) :
    ∃ al, Ext g (changeSection g sect push) [.section push (outPlace sect) al] := by
  unfold changeSection outPlace
  cases sect.outname
  case some => exact ⟨_, ext_emit _ _ rfl⟩
  case none =>
    dsimp only
    split
    · exact ⟨_, ext_emit _ _ rfl⟩
    · exact ⟨_, rfl, rfl, rfl, rfl⟩

theorem runOut_append (st : AsState) (a b : List Out) : runOut st (a ++ b) = runOut (runOut st a) b := by
  induction a generalizing st with
  | nil => rfl
  | cons o a ih => exact ih _

theorem placed_append {ls : List Ln} {st : AsState} {a b : List Out} (h : Placed ls st a) (h' : Placed ls (runOut st a) b) :
    Placed ls st (a ++ b) := by
  induction a generalizing st with
  | nil => exact h'
  | cons o a ih =>
    cases o with
    | line n i s sep =>
      cases n with
      | true => exact ⟨h.1, ih h.2 h'⟩
      | false => exact ih (st := st) h h'
    | _ => exact ih h h'

theorem addComm_ext {g g' : GenSt} {f : GFile} {ren : Bool} {s : List Byte} (h : addComm g f ren s = some g') :
    ∃ x, Ext g g' x ∧ (∀ n, linesOf n x = []) ∧ recordsOf x = [] ∧ ∀ ls st, Placed ls st x ∧ runOut st x = st := by
  unfold addComm at h
  rw [Option.map_eq_some_iff] at h
  obtain ⟨⟨nm, sz, al⟩, _, rfl⟩ := h
  obtain ⟨a, hs⟩ := changeSection_ext g dataSection true
  dsimp only
  refine ⟨_, hs.trans (ext_emit _ _ ?_), ?_, ?_, ?_⟩
  · split <;> split <;> split <;> rfl
  · intro k
    split <;> split <;> split <;> rfl
  · split <;> split <;> split <;> rfl
  · intro ls st
    split <;> split <;> split <;> exact ⟨trivial, rfl⟩

theorem addComm_zero {g g' : GenSt} {f : GFile} {ren : Bool} {s : List Byte} (h : addComm g f ren s = some g') :
    ∃ nm sz al page, commArgs s = some (nm, sz, al) ∧ g'.s = g.s ∧
      g'.out = g.out ++ zeroData (if ren then renamed f nm else nm.text) sz al page := by
  unfold addComm at h
  rw [Option.map_eq_some_iff] at h
  obtain ⟨⟨nm, sz, al⟩, h1, rfl⟩ := h
  obtain ⟨page, hs⟩ := changeSection_ext g dataSection true
  refine ⟨nm, sz, al, page, h1, hs.s, ?_⟩
  show (changeSection g dataSection true).out ++ _ = _
  rw [hs.out]
  unfold zeroData
  by_cases h2 : al = 0 <;> by_cases h3 : sz = 0 <;> simp [h2, h3, outPlace, dataSection, dataPlace]

theorem replaced_none {f : GFile} {i : Nat} {l : Ln} (hl : f.ls[i]? = some l) :
    replacedDir (f.dirAt i) = (replacedDir (some l.dir)) := by simp [GFile.dirAt, hl]

/-- One line of new code. -/
theorem genLine_ext {fl : WFlags} {first i : Nat} {g g' : GenSt} (h : genLine fl first g i = some g') :
    ∃ x, Ext g g' x ∧ linesOf false x = [] ∧ recordsOf x = [] ∧
      ((replacedDir (g.s.f1.dirAt i) = true ∧ linesOf true x = []) ∨
       (replacedDir (g.s.f1.dirAt i) = false ∧ ∃ s, lineText g.s.f1 fl (g.s.f1.textAt i) = some s ∧
          linesOf true x = [.line true i s (g.s.f1.sepAt s i)])) := by
  unfold genLine at h
  split at h
  · cases h
  rename_i l hl
  have hsect : ∀ g2, some (if i = first then g else changeSection g l.sect false) = some g2 →
      ∃ x, Ext g g2 x ∧ linesOf false x = [] ∧ recordsOf x = [] ∧ linesOf true x = [] := by
    intro g2 h2
    cases h2
    split
    · exact ⟨[], Ext.refl g, rfl, rfl, rfl⟩
    · obtain ⟨al, hs⟩ := changeSection_ext g l.sect false
      exact ⟨_, hs, rfl, rfl, rfl⟩
  cases hd : l.dir with
  | comm =>
    rw [hd] at h
    obtain ⟨x, h1, h2, h3, _⟩ := addComm_ext h
    exact ⟨x, h1, h2 _, h3, Or.inl ⟨by rw [replaced_none hl, hd]; rfl, h2 _⟩⟩
  | text | data | bss | pushsection | sect | popsection | previous =>
    rw [hd] at h
    obtain ⟨x, h1, h2, h3, h4⟩ := hsect g' h
    exact ⟨x, h1, h2, h3, Or.inl ⟨by rw [replaced_none hl, hd]; rfl, h4⟩⟩
  | _ =>
    rw [hd] at h
    dsimp only at h
    rw [Option.map_eq_some_iff] at h
    obtain ⟨o, h1, rfl⟩ := h
    obtain ⟨s, h2, rfl⟩ := writeLine_some h1
    refine ⟨_, ext_emit _ _ rfl, rfl, rfl, Or.inr ⟨by rw [replaced_none hl, hd]; rfl, s, h2, rfl⟩⟩

theorem genLines_ext {fl : WFlags} {first : Nat} {g g' : GenSt} : ∀ {l : List Nat},
    l.foldlM (genLine fl first) g = some g' →
    ∃ x, Ext g g' x ∧ linesOf false x = [] ∧ recordsOf x = [] ∧
      linesOf true x = (l.filter fun i => !replacedDir (g.s.f1.dirAt i)).filterMap (fun i =>
        (lineText g.s.f1 fl (g.s.f1.textAt i)).map fun s => .line true i s (g.s.f1.sepAt s i)) ∧
      ∀ i ∈ l, (lineText g.s.f1 fl (g.s.f1.textAt i)).isSome ∨ replacedDir (g.s.f1.dirAt i) = true := by
  intro l h
  have := foldlM_rec (genLine fl first) (fun l g' => ∃ x, Ext g g' x ∧ linesOf false x = [] ∧ recordsOf x = [] ∧
      linesOf true x = (l.filter fun i => !replacedDir (g.s.f1.dirAt i)).filterMap (fun i =>
        (lineText g.s.f1 fl (g.s.f1.textAt i)).map fun s => .line true i s (g.s.f1.sepAt s i)) ∧
      ∀ i ∈ l, (lineText g.s.f1 fl (g.s.f1.textAt i)).isSome ∨ replacedDir (g.s.f1.dirAt i) = true) l [] g g'
    ⟨[], Ext.refl g, rfl, rfl, rfl, by simp⟩ ?_ h
  · simpa using this
  · rintro pre i g1 g2 hi ⟨x, h1, h2, h3, h4, h5⟩ hs
    obtain ⟨y, q1, q2, q3, q4⟩ := genLine_ext hs
    rw [h1.s] at q4
    refine ⟨x ++ y, h1.trans q1, by rw [linesOf_append, h2, q2]; rfl, by rw [recordsOf_append, h3, q3]; rfl, ?_, ?_⟩
    · rw [linesOf_append, h4, List.filter_append, List.filterMap_append]
      congr 1
      rcases q4 with ⟨q4, q5⟩ | ⟨q4, s, q5, q6⟩
      · rw [q5]; simp [q4]
      · rw [q6]; simp [q4, q5]
    · intro j hj
      rcases List.mem_append.mp hj with hj | hj
      · exact h5 j hj
      · rw [List.mem_singleton] at hj
        subst hj
        rcases q4 with ⟨q4, q5⟩ | ⟨q4, s, q5, q6⟩
        · exact Or.inr q4
        · exact Or.inl (by simp [q5])

/-- One line of new code goes to the right section, and the section stays the one of the line. -/
theorem genLine_placed {fl : WFlags} {first i : Nat} {g g' : GenSt} (h : genLine fl first g i = some g') :
    ∃ x l, g'.s = g.s ∧ g'.out = g.out ++ x ∧ g.s.f1.ls[i]? = some l ∧
      ∀ (st : AsState) (c : SectInfo), st.cur = outPlace c → (i = first → c = l.sect) → (switchDir l.dir = false → c = l.sect) →
        Placed g.s.f1.ls st x ∧ (runOut st x).stack = st.stack ∧ (runOut st x).cur = outPlace l.sect := by
  unfold genLine at h
  split at h
  · cases h
  rename_i l hl
  have hsect : ∀ g2, some (if i = first then g else changeSection g l.sect false) = some g2 →
      ∃ x, g2.s = g.s ∧ g2.out = g.out ++ x ∧ ∀ (st : AsState) (c : SectInfo), st.cur = outPlace c → (i = first → c = l.sect) →
        Placed g.s.f1.ls st x ∧ (runOut st x).stack = st.stack ∧ (runOut st x).cur = outPlace l.sect := by
    intro g2 h2
    cases h2
    split
    · rename_i hi
      exact ⟨[], rfl, by simp, fun st c h1 h2 => ⟨trivial, rfl, h2 hi ▸ h1⟩⟩
    · obtain ⟨al, hs⟩ := changeSection_ext g l.sect false
      exact ⟨_, hs.s, hs.out, fun st c h1 h2 => ⟨trivial, rfl, rfl⟩⟩
  cases hd : l.dir with
  | comm =>
    rw [hd] at h
    obtain ⟨x, h1, h2, h3, h4⟩ := addComm_ext h
    refine ⟨x, l, h1.s, h1.out, hl, fun st c q1 q2 q3 => ?_⟩
    obtain ⟨e1, e2⟩ := h4 g.s.f1.ls st
    exact ⟨e1, by rw [e2], by rw [e2, q1, q3 (by rw [hd]; rfl)]⟩
  | text | data | bss | pushsection | sect | popsection | previous =>
    rw [hd] at h
    obtain ⟨x, h1, h2, h3⟩ := hsect g' h
    exact ⟨x, l, h1, h2, hl, fun st c q1 q2 _ => h3 st c q1 q2⟩
  | _ =>
    rw [hd] at h
    dsimp only at h
    rw [Option.map_eq_some_iff] at h
    obtain ⟨o, h1, rfl⟩ := h
    obtain ⟨s, h2, rfl⟩ := writeLine_some h1
    refine ⟨_, l, rfl, rfl, hl, fun st c q1 _ q3 => ?_⟩
    have q3 := q3 (by rw [hd]; rfl)
    exact ⟨⟨⟨l, hl, by rw [q1, q3]⟩, trivial⟩, rfl, by rw [← q3, ← q1]; rfl⟩

/-- The `.comm` statements of new code. -/
theorem genLines_comm {fl : WFlags} {first : Nat} {g g' : GenSt} : ∀ {l : List Nat}, l.foldlM (genLine fl first) g = some g' →
    ∃ x, g'.out = g.out ++ x ∧ g'.s = g.s ∧ ∀ i ∈ l, g.s.f1.dirAt i = some .comm → ∃ nm sz al page pre post,
      commArgs (g.s.f1.textAt i) = some (nm, sz, al) ∧
      x = pre ++ zeroData (if fl.ren then renamed g.s.f1 nm else nm.text) sz al page ++ post := by
  intro l
  induction l generalizing g with
  | nil => intro h; cases h; exact ⟨[], by simp, rfl, fun i hi => nomatch hi⟩
  | cons j l ih =>
    intro h
    rw [List.foldlM_cons] at h
    obtain ⟨g1, h1, h2⟩ := Option.bind_eq_some_iff.1 h
    obtain ⟨y, e1, e2, e3⟩ := ih h2
    obtain ⟨x, l', q1, q2, q3, _⟩ := genLine_placed h1
    refine ⟨x ++ y, by rw [e1, q2, List.append_assoc], by rw [e2, q1], fun i hi hd => ?_⟩
    rcases List.mem_cons.1 hi with rfl | hi
    · unfold genLine at h1
      rw [q3] at h1
      have hd' : l'.dir = .comm := by simpa [GFile.dirAt, q3] using hd
      have ht : g.s.f1.textAt i = l'.text := by simp [GFile.textAt, q3]
      simp only [hd'] at h1
      obtain ⟨nm, sz, al, page, w1, w2, w3⟩ := addComm_zero h1
      have : x = _ := List.append_cancel_left (q2.symm.trans w3)
      exact ⟨nm, sz, al, page, [], y, by rw [ht]; exact w1, by rw [this]; simp⟩
    · rw [q1] at e3
      obtain ⟨nm, sz, al, page, pre, post, w1, w2⟩ := e3 i hi hd
      exact ⟨nm, sz, al, page, x ++ pre, post, w1, by rw [w2]; simp⟩

/-- The lines of new code from a line on. -/
theorem genLines_placed {fl : WFlags} {first : Nat} (n : Nat) : ∀ (i : Nat) {g g' : GenSt},
    (List.range' i n).foldlM (genLine fl first) g = some g' → first ≤ i → SectionsRecorded g.s.f1.ls →
    ∃ x, g'.out = g.out ++ x ∧ ∀ (st : AsState) (l : Ln), g.s.f1.ls[if i = first then i else i - 1]? = some l →
      st.cur = outPlace l.sect → Placed g.s.f1.ls st x ∧ (runOut st x).stack = st.stack := by
  induction n with
  | zero =>
    intro i g g' h _ _
    cases h
    exact ⟨[], by simp, fun st l _ _ => ⟨trivial, rfl⟩⟩
  | succ n ih =>
    intro i g g' h hi hS
    rw [List.range'_succ, List.foldlM_cons] at h
    obtain ⟨g1, h1, h2⟩ := Option.bind_eq_some_iff.1 h
    obtain ⟨x, li, e1, e2, hli, hx⟩ := genLine_placed h1
    obtain ⟨y, e3, hy⟩ := ih (i + 1) h2 (by omega) (by rw [e1]; exact hS)
    refine ⟨x ++ y, by rw [e3, e2, List.append_assoc], fun st l hl hc => ?_⟩
    have hf : i = first → l = li := by
      intro e
      rw [if_pos e] at hl
      rw [hl] at hli
      exact Option.some.inj hli
    obtain ⟨p1, p2, p3⟩ := hx st l.sect hc (fun e => by rw [hf e]) (fun hsw => by
      by_cases e : i = first
      · rw [hf e]
      · rw [if_neg e] at hl
        exact (hS (i - 1) l li hl (by rw [show i - 1 + 1 = i by omega]; exact hli) hsw).symm)
    rw [e1, if_neg (by omega : ¬ i + 1 = first)] at hy
    obtain ⟨p4, p5⟩ := hy (runOut st x) li hli p3
    exact ⟨placed_append p1 p4, by rw [runOut_append, p5, p2]⟩

theorem genBlock_ext {o : GenOpts} {fl : WFlags} {g g' : GenSt} {b : GBlock} (h : genBlock o fl g b = some g') :
    ∃ x, Ext g g' x ∧ IsCode g.s.f1 fl b x := by
  unfold genBlock at h
  split at h
  · cases h
  rename_i l hl
  dsimp only at h
  rw [Option.map_eq_some_iff] at h
  obtain ⟨g2, h1, rfl⟩ := h
  obtain ⟨al, hs⟩ := changeSection_ext g l.sect true
  have hs2 : ∃ x, Ext g (if (o.global && decide (b.ty = .func)) = true then
        (changeSection g l.sect true).emit [.globl (b.name.text ++ lit ".kpatch")] else changeSection g l.sect true)
        (.section true (outPlace l.sect) al :: x) ∧ (∀ n, linesOf n x = []) ∧ recordsOf x = [] ∧
        ∀ st, Placed g.s.f1.ls st x ∧ runOut st x = st := by
    split
    · exact ⟨_, hs.trans (ext_emit _ _ rfl), fun n => rfl, rfl, fun _ => ⟨trivial, rfl⟩⟩
    · exact ⟨[], hs, fun n => rfl, rfl, fun _ => ⟨trivial, rfl⟩⟩
  obtain ⟨x, hx, hx1, hx2, hx3⟩ := hs2
  obtain ⟨y, hy, hy1, hy2, hy3, hy4⟩ := genLines_ext h1
  rw [hx.s] at hy3 hy4
  have hz : ∃ z, Ext g2 (g2.emit ((if b.ty = .func then [Out.label (b.name.text ++ lit ".kpatch_end")] else []) ++ [.pop]))
      (z ++ [.pop]) ∧ (∀ n, linesOf n z = []) ∧ recordsOf z = [] ∧
      ∀ st, Placed g.s.f1.ls st (z ++ [.pop]) ∧ runOut st (z ++ [.pop]) = st.step .pop := by
    split
    · exact ⟨_, ext_emit _ _ rfl, fun n => rfl, rfl, fun _ => ⟨trivial, rfl⟩⟩
    · exact ⟨_, ext_emit _ _ rfl, fun n => rfl, rfl, fun _ => ⟨trivial, rfl⟩⟩
  obtain ⟨z, hz, hz1, hz2, hz3⟩ := hz
  refine ⟨_, ext_handled ((hx.trans hy).trans hz) _ _, ?_, ?_, ?_, ?_, ⟨_, al, _, by rw [List.cons_append, List.cons_append]⟩,
    ⟨_, by rw [← List.append_assoc]⟩, ?_, ?_⟩
  · rw [linesOf_append, linesOf_append, linesOf_append, hz1, hy3]
    show linesOf true ([.section true (outPlace l.sect) al] ++ x) ++ _ ++ _ = _
    rw [linesOf_append, hx1]
    simp [linesOf, Out.isLine, renamedLines]
  · intro i h1 h2
    exact hy4 i (range_mem.mpr ⟨h1, h2⟩)
  · rw [linesOf_append, linesOf_append, linesOf_append, hz1, hy1]
    show linesOf false ([.section true (outPlace l.sect) al] ++ x) ++ _ ++ _ = _
    rw [linesOf_append, hx1]
    simp [linesOf, Out.isLine]
  · rw [recordsOf_append, recordsOf_append, recordsOf_append, hz2, hy2]
    show recordsOf ([.section true (outPlace l.sect) al] ++ x) ++ _ ++ _ = _
    rw [recordsOf_append, hx2]
    rfl
  · intro hS st
    have hr : b.range = List.range' b.start (b.stop - b.start) := by rw [GBlock.range, List.range'_eq_map_range]
    rw [hr] at h1
    obtain ⟨y', e1, hy'⟩ := genLines_placed _ _ h1 (Nat.le_refl _) (by rw [hx.s]; exact hS)
    have : y' = y := List.append_cancel_left (e1.symm.trans hy.out)
    subst this
    rw [hx.s, if_pos rfl] at hy'
    have p0 := hx3 (st.step (.push (outPlace l.sect)))
    obtain ⟨p1, p2⟩ := hy' (st.step (.push (outPlace l.sect))) l hl rfl
    have p3 : Placed g.s.f1.ls st (Out.section true (outPlace l.sect) al :: x) := p0.1
    have p4 : runOut st (Out.section true (outPlace l.sect) al :: x) = st.step (.push (outPlace l.sect)) := p0.2
    have p5 : runOut st (Out.section true (outPlace l.sect) al :: x ++ y') = runOut (st.step (.push (outPlace l.sect))) y' := by
      rw [runOut_append, p4]
    refine ⟨placed_append (placed_append p3 (by rw [p4]; exact p1)) (hz3 _).1, ?_⟩
    rw [runOut_append, p5, (hz3 _).2]
    have p6 : (runOut (st.step (.push (outPlace l.sect))) y').stack = (st.cur, st.prev) :: st.stack := p2
    generalize runOut (st.step (.push (outPlace l.sect))) y' = st2 at p6
    unfold AsState.step
    simp only [p6]
  · intro i h2 h3 hd
    obtain ⟨y', e1, _, e3⟩ := genLines_comm h1
    have : y' = y := List.append_cancel_left (e1.symm.trans hy.out)
    subst this
    rw [hx.s] at e3
    obtain ⟨nm, sz, al', page, pre, post, w1, w2⟩ := e3 i (range_mem.mpr ⟨h2, h3⟩) hd
    exact ⟨nm, sz, al', page, (.section true (outPlace l.sect) al :: x) ++ pre, post ++ (z ++ [.pop]), w1, by rw [w2]; simp only [List.append_assoc, List.cons_append]⟩

/-- The record of a function. -/
structure IsRecord (s : GSt) (b : GBlock) (r : InfoRec) : Prop where
  name : r.name = b.name.text
  newName : r.newName = renamed s.f1 b.name
  target : r.target = if b.unlink then none else (b.pair.bind s.f0.at).map fun p => p.name.text

theorem writeNewFunction_ext {o : GenOpts} {g g' : GenSt} {b : GBlock} (h : writeNewFunction o g b = some g') :
    ∃ x r, Ext g g' (x ++ [.text [10#8], .info r]) ∧ IsCode g.s.f1 ⟨true, o.gotpcrel⟩ b x ∧ IsRecord g.s b r := by
  unfold writeNewFunction at h
  rw [Option.map_eq_some_iff] at h
  obtain ⟨g2, h1, rfl⟩ := h
  obtain ⟨x, hx, hc⟩ := genBlock_ext h1
  dsimp only
  refine ⟨x, ⟨g2.nsyms + 1, b.name.text, renamed g2.s.f1 b.name,
    if b.unlink then none else (b.pair.bind g2.s.f0.at).map fun p => p.name.text⟩, ⟨hx.s, ?_, ?_, ?_⟩, hc,
    ⟨rfl, by rw [hx.s], by rw [hx.s]⟩⟩
  · dsimp only [GenSt.emit]
    rw [hx.out, List.append_assoc]
  · rw [recordsOf_append, hc.noRecords]
    show g2.nsyms + 1 = _
    rw [hx.nsyms, hc.noRecords]
    rfl
  · rw [recordsOf_append, hc.noRecords]
    have := hx.nsyms
    rw [hc.noRecords] at this
    show [g2.nsyms + 1] = List.range' (g.nsyms + 1) 1
    rw [this]
    rfl


/-- What is written for the replacement of the old function `b` by `b1`. -/
def Replacement (o : GenOpts) (s : GSt) (b b1 : GBlock) (x : List Out) : Prop :=
  ∃ code r, x = [.text (lit "\t.text\n"), .label (b.name.text ++ lit ".Lfe"),
      .text (lit "#---------- kpatch begin ---------\n")] ++ code ++ [.text [10#8], .info r,
      .text (lit "#---------- kpatch end -----------\n")] ∧
    IsCode s.f1 ⟨true, o.gotpcrel⟩ b1 code ∧ IsRecord s b1 r

/-- Nothing of the files and no record. -/
def Plain (x : List Out) : Prop := (∀ n, linesOf n x = []) ∧ recordsOf x = []

/-- The counterpart of the block is global, the block is not. -/
def globalNow (s : GSt) (b : GBlock) : Bool := (b.pair.bind s.f1.at).any (·.globl) && !b.globl

/-- What is written before an old block: nothing of the files and no record, at the end the declaration `d` if the block is
now global. -/
structure PreOf (s : GSt) (b : GBlock) (d : Out) (x : List Out) : Prop where
  lines : ∀ n, linesOf n x = []
  records : recordsOf x = []
  decl : globalNow s b = true → ∃ p, x = p ++ [d]

/-- What is written for an old block in pass 1. -/
def OldPiece (o : GenOpts) (s : GSt) (b : GBlock) (x : List Out) : Prop :=
  match b.ty with
  | .func => ∃ pre post, x = pre ++ verbatim s.f0 false b ++ post ∧ PreOf s b (.globl b.name.text) pre ∧
      match b.pair.bind s.f1.at with
      | none => post = []
      | some b1 => if (b1.ignore || b1.unlink) = true then post = [] else Replacement o s b b1 post
  | .var => ∃ pre, x = pre ++ verbatim s.f0 false b ∧ PreOf s b (.text (lit "\t.globl " ++ b.name.text ++ lit "\n")) pre
  | _ => x = []

theorem writeVar_ext {g g' : GenSt} {b : GBlock} (h : writeVar g b = some g') :
    ∃ pre, Ext g g' (pre ++ verbatim g.s.f0 false b) ∧ PreOf g.s b (.text (lit "\t.globl " ++ b.name.text ++ lit "\n")) pre := by
  unfold writeVar at h
  dsimp only at h
  rw [Option.map_eq_some_iff] at h
  obtain ⟨o, h1, rfl⟩ := h
  rw [writeBlock_plain h1]
  refine ⟨_, ext_handledOpt (ext_handled (ext_emit _ _ ?_) _ _) _ _, ?_, ?_, ?_⟩
  · rw [recordsOf_append, recordsOf_verbatim]; split <;> rfl
  · intro n; split <;> rfl
  · split <;> rfl
  · intro hb
    rw [if_pos (show becameGlobal g b = true from hb)]
    exact ⟨[_], rfl⟩

theorem writeFunc_ext {o : GenOpts} {g g' : GenSt} {b : GBlock} (h : writeFunc o g b = some g') :
    ∃ x, Ext g g' x ∧ ∃ pre post, x = pre ++ verbatim g.s.f0 false b ++ post ∧ PreOf g.s b (.globl b.name.text) pre ∧
      match b.pair.bind g.s.f1.at with
      | none => post = []
      | some b1 => if (b1.ignore || b1.unlink) = true then post = [] else Replacement o g.s b b1 post := by
  unfold writeFunc at h
  dsimp only at h
  rw [Option.bind_eq_some_iff] at h
  obtain ⟨v, h1, h2⟩ := h
  rw [writeBlock_plain h1] at h2
  have hpre : PreOf g.s b (.globl b.name.text) (Out.text (lit "#---------- func ---------\n") ::
    (if (o.global || becameGlobal g b) = true then [Out.globl b.name.text] else [])) := by
    constructor
    · intro n; split <;> rfl
    · split <;> rfl
    · intro hb
      rw [if_pos (by rw [show becameGlobal g b = true from hb, Bool.or_true])]
      exact ⟨[_], rfl⟩
  generalize Out.text (lit "#---------- func ---------\n") ::
    (if (o.global || becameGlobal g b) = true then [Out.globl b.name.text] else []) = pre at h2 hpre
  have he : Ext g ((g.emit (pre ++ verbatim g.s.f0 false b)).handled false b.start) (pre ++ verbatim g.s.f0 false b) :=
    ext_handled (ext_emit _ _ (by rw [recordsOf_append, hpre.2, recordsOf_verbatim]; rfl)) _ _
  generalize (g.emit (pre ++ verbatim g.s.f0 false b)).handled false b.start = g1 at h2 he
  rw [he.s] at h2
  cases hp : b.pair.bind g.s.f1.at with
  | none =>
    rw [hp] at h2
    cases h2
    exact ⟨_, he, pre, [], by simp, hpre, rfl⟩
  | some b1 =>
    rw [hp] at h2
    dsimp only at h2
    by_cases hi : (b1.ignore || b1.unlink) = true
    · rw [if_pos hi] at h2
      cases h2
      refine ⟨_, ext_handled he _ _, pre, [], by simp, hpre, ?_⟩
      dsimp only
      rw [if_pos hi]
    · rw [if_neg hi] at h2
      rw [Option.map_eq_some_iff] at h2
      obtain ⟨g3, h3, rfl⟩ := h2
      obtain ⟨code, r, hc1, hc2, hc3⟩ := writeNewFunction_ext h3
      have he2 : Ext g ((g1.handled true b1.start).emit [.text (lit "\t.text\n"), .label (b.name.text ++ lit ".Lfe"),
          .text (lit "#---------- kpatch begin ---------\n")]) (pre ++ verbatim g.s.f0 false b ++
            [.text (lit "\t.text\n"), .label (b.name.text ++ lit ".Lfe"), .text (lit "#---------- kpatch begin ---------\n")]) :=
        (ext_handled he _ _).trans (ext_emit _ _ rfl)
      rw [he2.s] at hc2 hc3
      refine ⟨_, (he2.trans hc1).trans (ext_emit _ _ rfl), pre, [.text (lit "\t.text\n"),
        .label (b.name.text ++ lit ".Lfe"), .text (lit "#---------- kpatch begin ---------\n")] ++ code ++ [.text [10#8], .info r,
        .text (lit "#---------- kpatch end -----------\n")], ?_, hpre, ?_⟩
      · simp
      · dsimp only
        rw [if_neg hi]
        exact ⟨code, r, rfl, hc2, hc3⟩

/-- A pass over the blocks of a file. -/
theorem fold_pieces {step : GenSt → Nat → Option GenSt} {s : GSt} {R : GBlock → List Out → Prop} :
    ∀ (bs : List GBlock) (g g' : GenSt),
    (∀ b ∈ bs, ∀ g g', g.s = s → step g b.start = some g' → ∃ x, Ext g g' x ∧ R b x) →
    g.s = s → (bs.map (·.start)).foldlM step g = some g' → ∃ xs, Ext g g' xs.flatten ∧ List.Forall₂ R bs xs := by
  intro bs
  induction bs with
  | nil =>
    intro g g' _ _ h
    simp only [List.map_nil, List.foldlM_nil, Option.pure_def, Option.some.injEq] at h
    subst h
    exact ⟨[], Ext.refl g, .nil⟩
  | cons b bs ih =>
    intro g g' hstep hs h
    rw [List.map_cons, List.foldlM_cons] at h
    cases hx : step g b.start with
    | none => rw [hx] at h; simp at h
    | some g1 =>
      rw [hx] at h
      obtain ⟨x, h1, h2⟩ := hstep b (by simp) g g1 hs hx
      obtain ⟨xs, h3, h4⟩ := ih g1 g' (fun b hb => hstep b (by simp [hb])) (by rw [h1.s, hs]) h
      exact ⟨x :: xs, by rw [List.flatten_cons]; exact h1.trans h3, .cons h2 h4⟩

/-- The blocks have different starts. -/
def GFile.Starts (f : GFile) : Prop := (f.bs.map (·.start)).Nodup

theorem at_of_mem {f : GFile} (h : f.Starts) {b : GBlock} (hb : b ∈ f.bs) : f.at b.start = some b := by
  unfold GFile.at
  unfold GFile.Starts at h
  revert h hb
  generalize f.bs = bs
  induction bs with
  | nil => intro _ hb; cases hb
  | cons a bs ih =>
    intro h hb
    rw [List.map_cons, List.nodup_cons] at h
    rcases List.mem_cons.mp hb with rfl | hb
    · simp
    · have : a.start ≠ b.start := by
        intro e
        exact h.1 (e ▸ List.mem_map_of_mem hb)
      rw [List.find?_cons_of_neg (by simpa using this)]
      exact ih h.2 hb

theorem mem_of_at {f : GFile} {s : Nat} {b : GBlock} (h : f.at s = some b) : b ∈ f.bs ∧ b.start = s := by
  unfold GFile.at at h
  exact ⟨List.mem_of_find?_eq_some h, by simpa using List.find?_some h⟩

theorem writeOld_ext {o : GenOpts} {g g' : GenSt} {b : GBlock} (hs : g.s.f0.Starts) (hb : b ∈ g.s.f0.bs)
    (h : writeOld o g b.start = some g') : ∃ x, Ext g g' x ∧ OldPiece o g.s b x := by
  unfold writeOld at h
  rw [at_of_mem hs hb] at h
  dsimp only at h
  unfold OldPiece
  cases ht : b.ty with
  | func =>
    rw [ht] at h
    exact writeFunc_ext h
  | var =>
    rw [ht] at h
    obtain ⟨pre, h1, h2⟩ := writeVar_ext h
    exact ⟨_, h1, pre, rfl, h2⟩
  | attr => rw [ht] at h; cases h; exact ⟨[], Ext.refl _, rfl⟩
  | other => rw [ht] at h; cases h; exact ⟨[], Ext.refl _, rfl⟩

/-- What is written for a function that gets a record: its code and its record. -/
def NewCode (o : GenOpts) (s : GSt) (b : GBlock) (x : List Out) : Prop :=
  ∃ t code r, x = t :: (code ++ [.text [10#8], .info r]) ∧ Plain [t] ∧ IsCode s.f1 ⟨true, o.gotpcrel⟩ b code ∧ IsRecord s b r

/-- What is written for a new block in pass 2. -/
def NewPiece (o : GenOpts) (s : GSt) (b : GBlock) (x : List Out) : Prop :=
  if b.pair.isSome then x = []
  else
    match b.ty with
    | .func => NewCode o s b x
    | .var => IsCode s.f1 ⟨true, false⟩ b x
    | _ => x = []

theorem writeNew_ext {o : GenOpts} {g g' : GenSt} {b : GBlock} (hs : g.s.f1.Starts) (hb : b ∈ g.s.f1.bs)
    (h : writeNew o g b.start = some g') : ∃ x, Ext g g' x ∧ NewPiece o g.s b x := by
  unfold writeNew at h
  rw [at_of_mem hs hb] at h
  dsimp only at h
  unfold NewPiece
  by_cases hp : b.pair.isSome = true
  · rw [if_pos hp] at h
    cases h
    exact ⟨[], Ext.refl _, by rw [if_pos hp]⟩
  · rw [if_neg hp] at h
    simp only [if_neg hp]
    cases ht : b.ty with
    | func =>
      rw [ht] at h
      obtain ⟨code, r, h1, h2, h3⟩ := writeNewFunction_ext h
      exact ⟨_, (ext_emit g _ rfl).trans h1, _, code, r, rfl, ⟨fun n => rfl, rfl⟩, h2, h3⟩
    | var =>
      rw [ht] at h
      exact genBlock_ext h
    | attr => rw [ht] at h; cases h; exact ⟨[], Ext.refl _, rfl⟩
    | other => rw [ht] at h; cases h; exact ⟨[], Ext.refl _, rfl⟩

def UnlinkedPiece (o : GenOpts) (s : GSt) (b : GBlock) (x : List Out) : Prop :=
  if b.unlink = true then NewCode o s b x else x = []

theorem writeUnlinked_ext {o : GenOpts} {g g' : GenSt} {b : GBlock} (hs : g.s.f1.Starts) (hb : b ∈ g.s.f1.bs)
    (h : writeUnlinked o g b.start = some g') : ∃ x, Ext g g' x ∧ UnlinkedPiece o g.s b x := by
  unfold writeUnlinked at h
  rw [at_of_mem hs hb] at h
  dsimp only at h
  unfold UnlinkedPiece
  by_cases hp : b.unlink = true
  · rw [if_pos hp] at h
    simp only [if_pos hp]
    obtain ⟨code, r, h1, h2, h3⟩ := writeNewFunction_ext h
    exact ⟨_, (ext_emit g _ rfl).trans h1, _, code, r, rfl, ⟨fun n => rfl, rfl⟩, h2, h3⟩
  · rw [if_neg hp] at h
    cases h
    exact ⟨[], Ext.refl _, by rw [if_neg hp]⟩

end Verif
