import Verif.Model.LineMem
import Verif.Proof.GenInv
/-
C105: the lines of an assembler file are freed once each, and the program ends with its output written.
-/
namespace Verif

variable [AsmTarget]

theorem freeLines_perm {tab : List (LBlock × Nat)} {live : List LBlock} (h0 : ∀ p ∈ tab, p.2 = 0) (hp : live.Perm (tab.map (·.1))) :
    freeLines live tab = some [] := by
  induction tab generalizing live with
  | nil => rw [freeLines, List.perm_nil.mp hp]
  | cons p tab ih =>
    have hm : p.1 ∈ live := hp.mem_iff.mpr (by simp)
    rw [freeLines, freeBlk, if_pos ⟨h0 p (by simp), hm⟩]
    refine ih (fun q hq => h0 q (by simp [hq])) ?_
    have := hp.erase p.1
    rwa [List.map_cons, List.erase_cons_head] at this

theorem freeLines_inner {tab : List (LBlock × Nat)} {live : List LBlock} (h : ∃ p ∈ tab, p.2 ≠ 0) : freeLines live tab = none := by
  induction tab generalizing live with
  | nil => obtain ⟨p, hp, _⟩ := h; cases hp
  | cons q tab ih =>
    rw [freeLines]
    cases hf : freeBlk live q with
    | none => rfl
    | some l =>
      obtain ⟨p, hp, h0⟩ := h
      rcases List.mem_cons.mp hp with rfl | hp
      · rw [freeBlk, if_neg (fun c => h0 c.1)] at hf; cases hf
      · exact ih ⟨p, hp, h0⟩

/-- A line that is kept whole or copied whole. -/
def GoodSplit (s : List Byte) : Prop := splitLine s = [(s, false)] ∨ ∀ p ∈ splitLine s, p.2 = true

theorem all_copied {s : List Byte} (h : ∀ p ∈ splitLine s, p.2 = true) (i nr : Nat) :
    stmtPtrs i nr s = ((List.range' nr (splitLine s).length).map fun k => (LBlock.copy k, 0)) ∧
      ((((splitLine s).zipIdx nr).filter fun x => x.1.2).map fun x => LBlock.copy x.2) = (List.range' nr (splitLine s).length).map LBlock.copy := by
  unfold stmtPtrs
  generalize splitLine s = ps at h
  induction ps generalizing nr with
  | nil => exact ⟨rfl, rfl⟩
  | cons p ps ih =>
    have := ih (nr + 1) (fun q hq => h q (by simp [hq]))
    have hp := h p (by simp)
    rw [List.zipIdx_cons, List.map_cons, List.filter_cons_of_pos (by simpa using hp), List.map_cons, List.length_cons, List.range'_succ,
      List.map_cons, List.map_cons, this.1, this.2]
    exact ⟨by simp [hp], rfl⟩

theorem splitMem_good {ls : List (List Byte)} {i nr : Nat} {live done : List LBlock} (hg : ∀ s ∈ ls, GoodSplit s)
    (hp : live.Perm (done ++ (List.range' i ls.length).map .line)) :
    ∃ live' tab, splitMem ls i nr live = some (live', tab) ∧ live'.Perm (done ++ tab.map (·.1)) ∧ ∀ p ∈ tab, p.2 = 0 := by
  induction ls generalizing i nr live done with
  | nil => exact ⟨live, [], rfl, by simpa using hp, by simp⟩
  | cons s ls ih =>
    rw [List.length_cons, List.range'_succ, List.map_cons] at hp
    rw [splitMem]
    rcases hg s (by simp) with h | h
    · have e1 : ((((splitLine s).zipIdx nr).filter fun x => x.1.2).map fun x => LBlock.copy x.2) = [] := by rw [h]; simp
      have e2 : stmtPtrs i nr s = [(.line i, 0)] := by unfold stmtPtrs; rw [h]; simp
      obtain ⟨live', tab, h1, h2, h3⟩ := ih (i := i + 1) (nr := nr + (splitLine s).length) (live := live) (done := done ++ [.line i])
        (fun q hq => hg q (by simp [hq])) (by simpa using hp)
      refine ⟨live', (.line i, 0) :: tab, ?_, by simpa using h2, by simpa using h3⟩
      simp only [e1, e2, List.nil_append]
      rw [if_neg (by rw [h]; simp)]
      simp only [h1, Option.map_some, List.cons_append, List.nil_append]
    · obtain ⟨e2, e1⟩ := all_copied h i nr
      generalize hcs : (List.range' nr (splitLine s).length).map LBlock.copy = cs at e1
      have hm : LBlock.line i ∈ cs ++ live := by
        rw [List.mem_append]
        exact Or.inr (hp.mem_iff.mpr (by simp))
      obtain ⟨live', tab, h1, h2, h3⟩ := ih (i := i + 1) (nr := nr + (splitLine s).length) (live := (cs ++ live).erase (.line i)) (done := done ++ cs)
        (fun q hq => hg q (by simp [hq])) (by
          have hq : (cs ++ live).Perm (.line i :: (done ++ cs ++ (List.range' (i + 1) ls.length).map .line)) := by
            refine (hp.append_left cs).trans ?_
            refine List.perm_iff_count.mpr fun b => ?_
            simp only [List.count_append, List.count_cons]
            omega
          have := hq.erase (.line i)
          rwa [List.erase_cons_head] at this)
      refine ⟨live', (List.range' nr (splitLine s).length).map (fun k => (LBlock.copy k, 0)) ++ tab, ?_, ?_, ?_⟩
      · simp only [e1, e2]
        rw [if_pos (List.all_eq_true.mpr h), freeBlk, if_pos ⟨rfl, hm⟩]
        simp only [h1, Option.map_some]
      · rw [List.map_append, List.map_map, show ((fun p : LBlock × Nat => p.1) ∘ fun k => (LBlock.copy k, 0)) = LBlock.copy from rfl, hcs, ← List.append_assoc]
        exact h2
      · intro p hp
        rcases List.mem_append.mp hp with hp | hp
        · obtain ⟨k, _, rfl⟩ := List.mem_map.mp hp; rfl
        · exact h3 p hp

theorem splitLine_nil : splitLine [] = [([], false)] := by simp [splitLine]

theorem lineCycle_good {text : List (List Byte)} (hg : ∀ s ∈ text, GoodSplit s) : lineCycle text = some [] := by
  obtain ⟨live', tab, h1, h2, h3⟩ := splitMem_good (i := 1) (nr := 1) (live := (List.range' 1 text.length).map .line) (done := []) hg (by simp)
  unfold lineCycle
  rw [splitMem, splitLine_nil]
  simp only [List.zipIdx_cons, List.zipIdx_nil, List.filter_cons, List.filter_nil, List.all_cons, List.all_nil, Bool.false_eq_true, Bool.and_true,
    ↓reduceIte, List.map_nil, List.nil_append, List.length_cons, List.length_nil, Nat.zero_add, h1, Option.map_some]
  have : stmtPtrs 0 0 [] = [(LBlock.line 0, 0)] := by unfold stmtPtrs; rw [splitLine_nil]; rfl
  rw [this]
  exact freeLines_perm h3 (by simpa using h2)

theorem splitStmts_short (s : List Byte) : ∀ p, (p, false) ∈ splitStmts s → p.length ≤ s.length := by
  fun_induction splitStmts s with
  | case1 => intro p hp; cases hp
  | case2 s _ h => intro p hp; simp at hp; rw [hp]
  | case3 s _ n h => intro p hp; simp at hp
  | case4 s _ n r h ih =>
    intro p hp
    simp only [List.mem_cons, Prod.mk.injEq, Bool.false_eq_true, and_false, false_or] at hp
    obtain ⟨e, h1, h2⟩ := scanStmt_rest s (some s) true n r h
    simp only [Option.some.injEq] at h1
    subst h1
    have := ih p hp
    omega

theorem splitLine_inner {s : List Byte} (h2 : (splitLine s).length ≥ 2) {p : List Byte} (hp : (p, false) ∈ splitLine s) : p.length < s.length := by
  unfold splitLine at h2 hp
  split at h2
  · rename_i hs
    rw [if_pos hs] at hp
    rw [splitStmts.eq_def] at h2 hp
    split at h2
    · simp at h2
    · rename_i h0
      rw [if_neg h0] at hp
      split at h2
      · simp at h2
      · simp at h2
      · rename_i n r h
        have hp : (p, false) ∈ (s.take n, true) :: splitStmts r := by
          revert hp
          split
          · rename_i h'; rw [h] at h'; cases h'
          · rename_i h'; rw [h] at h'; cases h'
          · rename_i n' r' h'
            rw [h] at h'
            simp only [StmtEnd.cut.injEq, Option.some.injEq] at h'
            obtain ⟨rfl, rfl⟩ := h'
            exact id
        simp only [List.mem_cons, Prod.mk.injEq, Bool.false_eq_true, and_false, false_or] at hp
        obtain ⟨e, h1, h3⟩ := scanStmt_rest s (some s) true n r h
        simp only [Option.some.injEq] at h1
        subst h1
        have := splitStmts_short r p hp
        omega
  · simp at h2

theorem splitMem_inner {ls : List (List Byte)} {i nr : Nat} {live live' : List LBlock} {tab : List (LBlock × Nat)}
    (h : splitMem ls i nr live = some (live', tab)) {s : List Byte} (hs : s ∈ ls) (h2 : (splitLine s).length ≥ 2) {p : List Byte}
    (hp : (p, false) ∈ splitLine s) : ∃ q ∈ tab, q.2 ≠ 0 := by
  induction ls generalizing i nr live live' tab with
  | nil => cases hs
  | cons s' ls ih =>
    rw [splitMem] at h
    split at h
    · cases h
    · rename_i live2 _
      cases hr : splitMem ls (i + 1) (nr + (splitLine s').length) live2 with
      | none => rw [hr] at h; cases h
      | some r =>
        rw [hr] at h
        simp only [Option.map_some, Option.some.injEq, Prod.mk.injEq] at h
        rw [← h.2]
        rcases List.mem_cons.mp hs with rfl | hs
        · obtain ⟨k, hk⟩ := List.mem_iff_getElem?.mp hp
          refine ⟨(.line i, s.length - p.length), List.mem_append.mpr (Or.inl ?_), ?_⟩
          · refine List.mem_map.mpr ⟨((p, false), nr + k), ?_, by simp⟩
            rw [List.mem_iff_getElem?]
            exact ⟨k, by rw [List.getElem?_zipIdx, hk]; rfl⟩
          · have := splitLine_inner h2 hp
            show s.length - p.length ≠ 0
            omega
        · obtain ⟨q, hq, h0⟩ := ih (by rw [hr]) hs
          exact ⟨q, List.mem_append.mpr (Or.inr hq), h0⟩

/-! ### Where comments are -/

theorem scanStmt_comment (s : List Byte) (se : Option (List Byte)) (first : Bool) : ∀ e, se = some e →
    (scanStmt s se first = .comment → 35#8 ∈ e ∨ 47#8 ∈ e) ∧ ∀ n r, scanStmt s se first = .cut n (some r) → ∀ c ∈ r, c ∈ e := by
  have mem_head : ∀ {l : List Byte} {c : Byte}, l.head? = some c → c ∈ l := fun h => List.mem_of_head? h
  match se with
  | none => intro e h; cases h
  | some e =>
    intro e0 h0
    cases h0
    obtain ⟨s0, hs0, ht, hr⟩ := getTokenD_sub delims (some e)
    have hsub : ∀ c ∈ s0, c ∈ e := by
      rcases hs0 with h | h
      · cases h; exact fun c hc => hc
      · rw [h]; simp
    have ht' : ∀ c ∈ (getToken (some e)).1.s, c ∈ e := fun c hc => hsub c (ht.subset hc)
    have hr' : ∀ r, (getToken (some e)).2 = some r → ∀ c ∈ r, c ∈ e := fun r h c hc => hsub c ((hr r h).subset hc)
    rw [scanStmt]
    split
    rename_i t se' hg
    rw [hg] at ht' hr'
    split
    · rename_i h
      exact ⟨fun _ => Or.inl (ht' _ (mem_head h.2)), fun n r h => by cases h⟩
    · split
      · rename_i h
        exact ⟨fun _ => Or.inr (ht' _ (mem_head h.2.2.1)), fun n r h => by cases h⟩
      · split
        · refine ⟨fun h => (by cases h), fun n r h => ?_⟩
          simp only [StmtEnd.cut.injEq] at h
          exact hr' r h.2
        · split
          · exact ⟨fun h => (by cases h), fun n r h => by simp at h⟩
          · rename_i e' _
            have hl := getTokenD_length delims (show (getTokenD delims (some e)).2 = some e' by
              rw [show getTokenD delims (some e) = _ from hg])
            split
            · refine ⟨fun h => (by cases h), fun n r h => ?_⟩
              simp only [StmtEnd.cut.injEq, Option.some.injEq] at h
              intro c hc
              rw [← h.2] at hc
              exact hr' e' rfl c (List.mem_of_mem_drop hc)
            · have ih := scanStmt_comment s (some e') false e' rfl
              exact ⟨fun h => (ih.1 h).imp (hr' e' rfl _) (hr' e' rfl _), fun n r h c hc => hr' e' rfl c (ih.2 n r h c hc)⟩
termination_by se.elim 0 (fun s => s.length + 1)
decreasing_by
  simp only [Option.elim_some]
  omega

theorem splitStmts_plain (s : List Byte) : 35#8 ∉ s → 47#8 ∉ s → ∀ p ∈ splitStmts s, p.2 = true := by
  fun_induction splitStmts s with
  | case1 => intro _ _ p hp; cases hp
  | case2 s _ h => intro h1 h2; rcases (scanStmt_comment s (some s) true s rfl).1 h with c | c <;> contradiction
  | case3 s _ n h => intro _ _ p hp; simp at hp; rw [hp]
  | case4 s _ n r h ih =>
    intro h1 h2 p hp
    have hsub := (scanStmt_comment s (some s) true s rfl).2 n r h
    rcases List.mem_cons.mp hp with rfl | hp
    · rfl
    · exact ih (fun c => h1 (hsub _ c)) (fun c => h2 (hsub _ c)) p hp

theorem splitLine_single {s p : List Byte} (h : splitLine s = [(p, false)]) : p = s := by
  unfold splitLine at h
  split at h
  · rw [splitStmts.eq_def] at h
    split at h
    · cases h
    · split at h
      · simp at h; exact h.symm
      · simp at h
      · simp at h
  · simp at h; exact h.symm

theorem goodSplit {s : List Byte} (h : (splitLine s).length ≤ 1 ∨ (35#8 ∉ s ∧ 47#8 ∉ s)) : GoodSplit s := by
  rcases h with h | ⟨h1, h2⟩
  · rcases hs : splitLine s with _ | ⟨⟨p, b⟩, _ | ⟨y, l⟩⟩
    · right; rw [hs]; simp
    · cases b with
      | false => left; rw [hs, splitLine_single hs]
      | true => right; rw [hs]; simp
    · rw [hs] at h; simp at h
  · unfold GoodSplit splitLine
    split
    · exact Or.inr (splitStmts_plain s h1 h2)
    · exact Or.inl rfl

/-! ### C105 -/

/-- Two files whose lines are single statements, with or without a comment, or have no `#` and no `/` in them: every block that was allocated
for a line is freed once, none is left, and the program ends with its output written.  Missing: lines with a comment behind more than one
statement or behind a label (C105_violated_comment). -/
theorem C105_lines_partial (text0 text1 written : List (List Byte)) (h0 : ∀ s ∈ text0, (splitLine s).length ≤ 1 ∨ (35#8 ∉ s ∧ 47#8 ∉ s))
    (h1 : ∀ s ∈ text1, (splitLine s).length ≤ 1 ∨ (35#8 ∉ s ∧ 47#8 ∉ s)) :
    lineCycle text0 = some [] ∧ lineCycle text1 = some [] ∧ genEnd text0 text1 written = some written := by
  have e0 := lineCycle_good fun s hs => goodSplit (h0 s hs)
  have e1 := lineCycle_good fun s hs => goodSplit (h1 s hs)
  exact ⟨e0, e1, by unfold genEnd; rw [e0, e1]⟩

/-- Every file with a line of more than one statement, one of which is not copied because of a comment: a pointer into the middle of the line
is freed, and the program is ended before its output is written, whatever the other file is. -/
theorem C105_violated_comment (text other written : List (List Byte)) {s p : List Byte} (hs : s ∈ text) (h2 : (splitLine s).length ≥ 2)
    (hp : (p, false) ∈ splitLine s) :
    lineCycle text = none ∧ genEnd text other written = none ∧ genEnd other text written = none := by
  have e : lineCycle text = none := by
    unfold lineCycle
    cases hm : splitMem ([] :: text) 0 0 ((List.range' 1 text.length).map .line) with
    | none => rfl
    | some r =>
      obtain ⟨live, tab⟩ := r
      refine freeLines_inner ?_
      rw [splitMem] at hm
      split at hm
      · cases hm
      · rename_i live2 _
        cases hr : splitMem text (0 + 1) (0 + (splitLine []).length) live2 with
        | none => rw [hr] at hm; cases hm
        | some r =>
          rw [hr] at hm
          simp only [Option.map_some, Option.some.injEq, Prod.mk.injEq] at hm
          obtain ⟨q, hq, h0⟩ := splitMem_inner hr hs h2 hp
          refine ⟨q, ?_, h0⟩
          rw [← hm.2, show stmtPtrs 0 0 [] = [(LBlock.line 0, 0)] by unfold stmtPtrs; rw [splitLine_nil]; rfl]
          exact hq
  refine ⟨e, by unfold genEnd; rw [e], ?_⟩
  unfold genEnd
  rw [e]
  cases lineCycle other <;> rfl

theorem freeSects_all {known cur : List SectInfo} {ls : List (List Byte)} {i prev : Nat} {tab alloc : List Nat} (hi : prev < i)
    (h : sectMem known cur i prev ls = some (tab, alloc)) : freeSects prev alloc tab = some [] := by
  induction ls generalizing known cur i prev tab alloc with
  | nil =>
    simp only [sectMem, Option.some.injEq, Prod.mk.injEq] at h
    rw [← h.1, ← h.2]; rfl
  | cons l ls ih =>
    rw [sectMem] at h
    split at h
    · cases h
    · cases hr : sectMem known cur (i + 1) prev ls with
      | none => rw [hr] at h; cases h
      | some r =>
        rw [hr] at h
        simp only [Option.map_some, Option.some.injEq, Prod.mk.injEq] at h
        rw [← h.1, ← h.2, freeSects, if_neg (by simp)]
        exact ih (by omega) hr
    · rename_i s known' _
      cases hr : sectMem known' (s :: cur) (i + 1) i ls with
      | none => rw [hr] at h; cases h
      | some r =>
        rw [hr] at h
        simp only [Option.map_some, Option.some.injEq, Prod.mk.injEq] at h
        rw [← h.1, ← h.2, freeSects, if_pos (by omega), if_pos (by simp), List.erase_cons_head]
        exact ih (by omega) hr

/-- The sections: for every file, whatever its section directives, every block that was allocated is freed once, none is left, and the
predefined section that the file starts with, block 0, is not freed. -/
theorem C105_sections {known cur : List SectInfo} {text : List (List Byte)} {tab alloc : List Nat}
    (h : sectMem known cur 1 0 text = some (tab, alloc)) : freeSects 0 alloc tab = some [] ∧ 0 ∉ alloc := by
  refine ⟨freeSects_all (by omega) h, ?_⟩
  have key : ∀ (ls : List (List Byte)) (known cur : List SectInfo) (i prev : Nat) (tab alloc : List Nat), 0 < i →
      sectMem known cur i prev ls = some (tab, alloc) → 0 ∉ alloc := by
    intro ls
    induction ls with
    | nil =>
      intro known cur i prev tab alloc _ h
      simp only [sectMem, Option.some.injEq, Prod.mk.injEq] at h
      rw [← h.2]; simp
    | cons l ls ih =>
      intro known cur i prev tab alloc hi h
      rw [sectMem] at h
      split at h
      · cases h
      · cases hr : sectMem known cur (i + 1) prev ls with
        | none => rw [hr] at h; cases h
        | some r =>
          rw [hr] at h
          simp only [Option.map_some, Option.some.injEq, Prod.mk.injEq] at h
          rw [← h.2]
          exact ih _ _ _ _ _ _ (by omega) hr
      · rename_i s known' _
        cases hr : sectMem known' (s :: cur) (i + 1) i ls with
        | none => rw [hr] at h; cases h
        | some r =>
          rw [hr] at h
          simp only [Option.map_some, Option.some.injEq, Prod.mk.injEq] at h
          rw [← h.2, List.mem_cons, not_or]
          exact ⟨by omega, ih _ _ _ _ _ _ (by omega) hr⟩
  exact key text known cur 1 0 tab alloc (by omega) h

omit [AsmTarget] in
/-- Going back and forth between sections. -/
example : letI := x86Asm
    sectMem predefinedSections (predefinedSections.drop 3 |>.take 1) 1 0 [lit ".data", lit "x:", lit ".text", lit ".previous", lit ".data"] =
      some ([1, 1, 3, 4, 5], [1, 3, 4, 5]) := by
  decide +kernel

omit [AsmTarget] in
/-- A label or a statement in front of a statement with a comment is enough. -/
theorem C105_violated_witness :
    letI := x86Asm
    genEnd [lit "f:", lit "1: nop # wait"] [] [lit "out"] = none ∧ genEnd [lit "nop; nop # twice"] [] [lit "out"] = none ∧
      genEnd [lit "f:", lit "nop # wait: no", lit "1: nop; ret"] [] [lit "out"] = some [lit "out"] := by
  decide +kernel

end Verif
