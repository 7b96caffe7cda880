import Verif.Spec.Rename
import Verif.Proof.Token
import Verif.Props.RbTree
import Mathlib.Data.List.Forall2
/-
C42: tokenising loses nothing.  C43: renaming touches only renamed symbols.
-/
namespace Verif
open RbTree

/-- The string pointers of the operation are inside of their strings. -/
def RenOp.Ok : RenOp → Prop
  | .add src dst => src.Ok ∧ dst.Ok
  | .del src => src.Ok

/-- C42.  For every line the loop over tokens ends (`tokens` is a total function) and the line is the tokens with blanks
before, between and after them, up to the end of the line; a line with only blanks has a single empty token. -/
theorem C42_nothing_lost (line : List Byte) :
    Spaced line ((tokens (some line)).map Kpstr.text) ∨
      (∃ b r, line = b ++ r ∧ AllBlank b ∧ (r = [] ∨ r.head? = some 10#8) ∧
        (tokens (some line)).map Kpstr.text = [[]]) := by
  by_cases h : atEnd (skipBlanks line) = true
  · right
    obtain ⟨b, hb, hs⟩ := skipBlanks_split line
    refine ⟨b, _, hs, hb, (atEnd_iff _).mp h, ?_⟩
    rw [tokens_some, show getToken (some line) = _ from getTokenD_end delims line h, tokens_none]
    rfl
  · left
    exact spaced_tokens _ line (Nat.le_refl _) (by simpa using h)

theorem spaced_concat {s : List Byte} {ts : List (List Byte)} (h : Spaced s ts) (hnl : 10#8 ∉ s)
    (hts : ∀ t ∈ ts, ∀ c ∈ t, isBlank c = false) : s.filter (fun c => !isBlank c) = ts.flatten := by
  induction h with
  | done b r hb hr =>
    have hr' : r = [] := by
      rcases hr with e | e
      · exact e
      · cases r with
        | nil => rfl
        | cons c r =>
          simp at e
          subst e
          simp at hnl
    subst hr'
    simp only [List.append_nil, List.flatten_nil, List.filter_eq_nil_iff]
    intro c hc
    simp [isBlank_iff, hb c hc]
  | tok b t rest ts hb ht h ih =>
    simp only [List.filter_append, List.flatten_cons]
    rw [ih (fun hc => hnl (by simp [hc])) (fun t ht => hts t (by simp [ht]))]
    have e1 : b.filter (fun c => !isBlank c) = [] := by
      rw [List.filter_eq_nil_iff]
      intro c hc
      simp [isBlank_iff, hb c hc]
    have e2 : t.filter (fun c => !isBlank c) = t := by
      rw [List.filter_eq_self]
      intro c hc
      simp [hts t (by simp) c hc]
    rw [e1, e2, List.nil_append]

theorem mem_takeWhile_imp' {p : Byte → Bool} {c : Byte} : ∀ {l : List Byte}, c ∈ l.takeWhile p → p c = true := by
  intro l
  induction l with
  | nil => simp
  | cons d l ih =>
    rw [List.takeWhile_cons]
    split
    · rename_i h
      intro hc
      rcases List.mem_cons.mp hc with e | e
      · rw [e]; exact h
      · exact ih e
    · simp

/-- C42: every token is a piece of the line it was cut from, and the pointer of the token points to it. -/
theorem C42_token_in_line (s : List Byte) (h : atEnd (skipBlanks s) = false) :
    ∃ b t r, s = b ++ t ++ r ∧ AllBlank b ∧ t ≠ [] ∧ (getToken (some s)).1.s = t ++ r ∧ (getToken (some s)).1.text = t ∧
      (t.head? = some 34#8 ∨ t.length = 1 ∨ ∀ c ∈ t, c ∉ delims) := by
  obtain ⟨b, t, r, hb, ht, hs, hr, h1, _⟩ := getTokenD_some delims s h
  have h1' : (getToken (some s)).1 = ⟨t ++ r, t.length⟩ := h1
  refine ⟨b, t, r, hs, hb, ht, by rw [h1'], by rw [h1', text_append], ?_⟩
  obtain ⟨t', ht'⟩ := tokenEnd_suffix delims (skipBlanks s)
  have htt : t ++ r = skipBlanks s := by
    have e1 : (getToken (some s)).1.s = skipBlanks s := by simp [getToken, getTokenD, h]
    rw [h1'] at e1
    exact e1
  by_cases hq : (skipBlanks s).head? = some 34#8
  · left
    rw [← htt] at hq
    cases t with
    | nil => exact absurd rfl ht
    | cons c t => simpa using hq
  · right
    have hte : tokenEnd delims (skipBlanks s) = (if ((skipBlanks s).dropWhile fun c => !delims.contains c).length =
        (skipBlanks s).length then (skipBlanks s).drop 1 else (skipBlanks s).dropWhile fun c => !delims.contains c) := by
      unfold tokenEnd
      rw [if_neg hq]
    rw [hte] at hr
    split at hr
    · left
      have hl := congrArg List.length htt
      rw [List.length_append, hr, List.length_drop] at hl
      have : skipBlanks s ≠ [] := by intro e; simp [atEnd, e] at h
      have := List.length_pos_iff.mpr this
      omega
    · right
      have : t = (skipBlanks s).takeWhile fun c => !delims.contains c := by
        have e := List.takeWhile_append_dropWhile (p := fun c => !delims.contains c) (l := skipBlanks s)
        rw [← hr] at e
        exact List.append_cancel_right (htt.trans e.symm)
      rw [this]
      intro c hc
      have := mem_takeWhile_imp' hc
      simpa using this

example : (tokens (some [9#8, 106#8, 109#8, 112#8, 32#8, 46#8, 76#8, 43#8, 49#8])).map Kpstr.text =
    [[106#8, 109#8, 112#8], [46#8, 76#8], [43#8], [49#8]] := by
  repeat rw [tokens_some]
  decide +kernel

/-- Agreement of the tree with a map. -/
structure RenRep (t : Renames) (m : NameMap) : Prop where
  rep : RbRep (fun r : Rename => NameKey.mk r.src) t t.toList
  map : ∀ nm : List Byte, (t.search fun r => kpstrcmp (kpz r.src) (kpz nm)).map Rename.dst = m nm

theorem renameCmp_text (r : Rename) (nm : Kpstr) (h : nm.Ok) : renameCmp r nm = kpstrcmp (kpz r.src) (kpz nm.text) := by
  unfold renameCmp
  rw [kpstrcmp_text _ _ (kpz_ok _) h, kpstrcmp_text _ _ (kpz_ok _) (kpz_ok _), kpz_text, kpz_text]

theorem renameFind_text (t : Renames) (nm : Kpstr) (h : nm.Ok) :
    renameFind t nm = t.search fun r => kpstrcmp (kpz r.src) (kpz nm.text) := by
  unfold renameFind
  congr 1
  funext r
  exact renameCmp_text r nm h

theorem renCmpOk : CmpOk (fun r : Rename => NameKey.mk r.src) (fun r k => kpstrcmp (kpz r.src) (kpz k.bytes)) :=
  C41_tree_order Rename.src

theorem search_src {t : Renames} {m : NameMap} (h : RenRep t m) (nm : List Byte) (r : Rename) :
    (t.search fun r => kpstrcmp (kpz r.src) (kpz nm)) = some r ↔ r ∈ t.toList ∧ r.src = nm := by
  have := search_spec renCmpOk ⟨nm⟩ t h.rep.sorted r
  simp only [NameKey.mk.injEq] at this
  exact this

theorem renRep_of {t : Renames} {m : NameMap} (hr : RbRep (fun r : Rename => NameKey.mk r.src) t t.toList)
    (hm : ∀ nm d, m nm = some d ↔ ⟨nm, d⟩ ∈ t.toList) : RenRep t m := by
  refine ⟨hr, fun nm => ?_⟩
  have hs : ∀ r, (t.search fun r => kpstrcmp (kpz r.src) (kpz nm)) = some r ↔ r ∈ t.toList ∧ r.src = nm := by
    intro r
    have := search_spec renCmpOk ⟨nm⟩ t hr.sorted r
    simp only [NameKey.mk.injEq] at this
    exact this
  apply Option.ext
  intro d
  rw [hm]
  simp only [Option.map_eq_some_iff]
  constructor
  · rintro ⟨r, h1, h2⟩
    obtain ⟨h3, h4⟩ := (hs r).mp h1
    cases r
    simp only at h2 h4
    subst h2 h4
    exact h3
  · intro hd
    exact ⟨⟨nm, d⟩, (hs _).mpr ⟨hd, rfl⟩, rfl⟩

theorem renRep_mem {t : Renames} {m : NameMap} (h : RenRep t m) (nm d : List Byte) :
    m nm = some d ↔ ⟨nm, d⟩ ∈ t.toList := by
  rw [← h.map nm]
  simp only [Option.map_eq_some_iff]
  constructor
  · rintro ⟨r, h1, h2⟩
    obtain ⟨h3, h4⟩ := (search_src h nm r).mp h1
    cases r
    simp only at h2 h4
    subst h2 h4
    exact h3
  · intro hd
    exact ⟨⟨nm, d⟩, (search_src h nm _).mpr ⟨hd, rfl⟩, rfl⟩

theorem renFind_map {t : Renames} {m : NameMap} (h : RenRep t m) (nm : Kpstr) (ho : nm.Ok) :
    (renameFind t nm).map Rename.dst = m nm.text := by
  rw [renameFind_text _ _ ho, h.map]

theorem renRep_nil : RenRep .nil (fun _ => none) :=
  ⟨⟨⟨rfl, trivial, 0, rfl⟩, List.Pairwise.nil, fun _ => Iff.rfl⟩, fun _ => rfl⟩

theorem rbRep_self {t : Renames} {live : List Rename} (h : RbRep (fun r : Rename => NameKey.mk r.src) t live) :
    RbRep (fun r : Rename => NameKey.mk r.src) t t.toList := ⟨h.rb, h.sorted, fun _ => Iff.rfl⟩

theorem kpstrcmp_zero {x y : Kpstr} (hx : x.Ok) (hy : y.Ok) : kpstrcmp x y = 0 ↔ x.text = y.text :=
  (C41_dictionary_order x y hx hy).2.1

/-- One operation: the tree follows the map, and the program stops exactly on a conflict. -/
theorem renRep_step {t : Renames} {m : NameMap} (h : RenRep t m) (o : RenOp) (ho : o.Ok) :
    (o.spec m = none ∧ o.run t = none) ∨ ∃ m' t', o.spec m = some m' ∧ o.run t = some t' ∧ RenRep t' m' := by
  cases o with
  | add src dst =>
    obtain ⟨h1, h2⟩ := ho
    have hf := renFind_map h src h1
    simp only [RenOp.spec, RenOp.run, renameAdd]
    by_cases he : src.text = dst.text
    · right
      exact ⟨m, t, by rw [if_pos he], by rw [if_pos ((kpstrcmp_zero h1 h2).mpr he)], h⟩
    · rw [if_neg he, if_neg fun hc => he ((kpstrcmp_zero h1 h2).mp hc)]
      cases hq : renameFind t src with
      | some r2 =>
        rw [hq] at hf
        rw [← hf]
        simp only [Option.map_some, ne_eq]
        have e : kpstrcmp (kpz r2.dst) dst = 0 ↔ r2.dst = dst.text := by
          rw [kpstrcmp_zero (kpz_ok _) h2, kpz_text]
        by_cases hd : r2.dst = dst.text
        · right
          exact ⟨m, t, by rw [if_pos hd], by rw [if_neg]; simpa using e.mpr hd, h⟩
        · left
          exact ⟨by rw [if_neg hd], by rw [if_pos]; simpa using fun hc => hd (e.mp hc)⟩
      | none =>
        rw [hq] at hf
        simp only [Option.map_none] at hf
        right
        rw [← hf]
        have hno : ∀ r ∈ t.toList, r.src ≠ src.text := by
          intro r hr hc
          rw [renameFind_text _ _ h1] at hq
          have := (search_src h src.text r).mpr ⟨hr, hc⟩
          rw [hq] at this
          cases this
        obtain ⟨t', r1, r2⟩ := rbRep_step renCmpOk h.rep (.insert ⟨src.text, dst.text⟩ ⟨src.text⟩)
          ⟨rfl, fun hc => hno _ hc rfl⟩
        refine ⟨_, t', rfl, ?_, renRep_of (rbRep_self r2) ?_⟩
        · have : (fun r => renameCmp r src) = fun r : Rename => kpstrcmp (kpz r.src) (kpz src.text) := by
            funext r; exact renameCmp_text r src h1
          rw [this]
          exact r1
        · intro nm d
          have hspec : RbOp.spec (fun r : Rename => NameKey.mk r.src) t.toList (.insert ⟨src.text, dst.text⟩ ⟨src.text⟩) =
              ⟨src.text, dst.text⟩ :: t.toList := by
            simp only [RbOp.spec]
            rw [if_neg]
            simp only [List.any_eq_true, not_exists, not_and]
            intro x hx
            simp [hno x hx]
          rw [r2.mem, hspec]
          simp only [List.mem_cons, Rename.mk.injEq]
          split
          · rename_i hnm
            constructor
            · intro hd; left; exact ⟨hnm, by simpa using hd.symm⟩
            · rintro (hd | hd)
              · rw [hd.2]
              · exact absurd hnm (hno _ hd)
          · rename_i hnm
            rw [renRep_mem h]
            constructor
            · intro hd; exact Or.inr hd
            · rintro (hd | hd)
              · exact absurd hd.1 hnm
              · exact hd
  | del src =>
    right
    have h1 : src.Ok := ho
    simp only [RenOp.spec, RenOp.run, renameDel]
    cases hq : renameFind t src with
    | none =>
      have hf := renFind_map h src h1
      rw [hq] at hf
      refine ⟨_, t, rfl, rfl, renRep_of h.rep fun nm d => ?_⟩
      split
      · rename_i hnm
        rw [← renRep_mem h, hnm, ← hf]
        simp
      · exact renRep_mem h nm d
    | some r =>
      rw [renameFind_text _ _ h1] at hq
      obtain ⟨q1, q2⟩ := (search_src h src.text r).mp hq
      obtain ⟨t', r1, r2⟩ := rbRep_step renCmpOk h.rep (.erase r) q1
      refine ⟨_, t', rfl, r1, renRep_of (rbRep_self r2) fun nm d => ?_⟩
      rw [r2.mem]
      simp only [RbOp.spec, List.mem_filter, decide_eq_true_eq, ne_eq]
      split
      · rename_i hnm
        constructor
        · intro hc; cases hc
        · rintro ⟨c1, c2⟩
          have e1 := (search_src h nm ⟨nm, d⟩).mpr ⟨c1, rfl⟩
          rw [hnm] at e1
          rw [hq] at e1
          simp only [Option.some.injEq] at e1
          exact absurd e1.symm (by rw [hnm] at c2; exact c2)
      · rename_i hnm
        rw [renRep_mem h]
        constructor
        · intro hd; exact ⟨hd, by rintro rfl; exact hnm q2⟩
        · exact fun hd => hd.1

theorem runRen_rep : ∀ (ops : List RenOp) (t : Renames) (m : NameMap), RenRep t m → (∀ o ∈ ops, o.Ok) →
    match specRen m ops with
    | none => runRen t ops = none
    | some m' => ∃ t', runRen t ops = some t' ∧ RenRep t' m' := by
  intro ops
  induction ops with
  | nil => intro t m h _; exact ⟨t, rfl, h⟩
  | cons o os ih =>
    intro t m h hok
    rcases renRep_step h o (hok o (by simp)) with ⟨a, b⟩ | ⟨m', t', a, b, c⟩
    · simp only [specRen, runRen, a, b, Option.bind_none]
    · simp only [specRen, runRen, a, b, Option.bind_some]
      exact ih t' m' c fun o ho => hok o (by simp [ho])

/-- C43 for the table: after any history of additions and removals the program has stopped because two different new
names were asked for one name, or looking a name up gives exactly what the history says. -/
theorem C43_rename_table (ops : List RenOp) (hok : ∀ o ∈ ops, o.Ok) :
    match specRen (fun _ => none) ops with
    | none => runRen .nil ops = none
    | some m => ∃ t, runRen .nil ops = some t ∧ ∀ nm : Kpstr, nm.Ok → (renameFind t nm).map Rename.dst = m nm.text := by
  have := runRen_rep ops .nil _ renRep_nil hok
  cases he : specRen (fun _ => none) ops with
  | none => rw [he] at this; exact this
  | some m =>
    rw [he] at this
    obtain ⟨t, h1, h2⟩ := this
    exact ⟨t, h1, fun nm hn => renFind_map h2 nm hn⟩

/-- A line, its tokens, and the line rewritten with a map: each token replaced by its new name, the blanks kept, up to
the end of the line. -/
inductive Rewritten (m : NameMap) : List Byte → List (List Byte) → List Byte → Prop
  | done (b r : List Byte) : AllBlank b → (r = [] ∨ r.head? = some 10#8) → Rewritten m (b ++ r) [] b
  | tok (b t rest out : List Byte) (ts : List (List Byte)) : AllBlank b → t ≠ [] → Rewritten m rest ts out →
      Rewritten m (b ++ t ++ rest) (t :: ts) (b ++ m.apply t ++ out)

theorem strDoRename_none (f : Renames) : strDoRename f none = [] := by rw [strDoRename]

theorem strDoRename_some (f : Renames) (s : List Byte) : strDoRename f (some s) =
    s.takeWhile isBlank ++ (match renameFind f (getToken (some s)).1 with | some r => cstr r.dst | none => (getToken (some s)).1.text) ++
      ((getToken (some s)).1.s.drop (getToken (some s)).1.l).takeWhile isBlank ++ strDoRename f (getToken (some s)).2 := by
  rw [strDoRename]
  split
  rename_i t0 src' heq
  rw [heq]
  dsimp only
  cases h : renameFind f t0 with
  | none => rfl
  | some r => simp [kpz]

theorem rewritten_blank {m : NameMap} {b s out : List Byte} {ts : List (List Byte)} (hb : AllBlank b)
    (h : Rewritten m s ts out) : Rewritten m (b ++ s) ts (b ++ out) := by
  have hcat : ∀ b', AllBlank b' → AllBlank (b ++ b') := by
    intro b' h' c hc
    rcases List.mem_append.mp hc with e | e
    · exact hb c e
    · exact h' c e
  cases h with
  | done b' r h1 h2 => rw [← List.append_assoc]; exact .done _ _ (hcat _ h1) h2
  | tok b' t rest out ts h1 h2 h3 =>
    simp only [← List.append_assoc]
    exact .tok _ _ _ _ _ (hcat _ h1) h2 h3

theorem takeWhile_blank (s : List Byte) : AllBlank (s.takeWhile isBlank) ∧ s = s.takeWhile isBlank ++ skipBlanks s :=
  ⟨fun _ hc => (isBlank_iff _).mp (mem_takeWhile_imp' hc), (List.takeWhile_append_dropWhile).symm⟩

theorem takeWhile_skip (s : List Byte) : (skipBlanks s).takeWhile isBlank = [] := by
  have h := (takeWhile_blank (skipBlanks s)).2
  rw [skipBlanks_idem] at h
  exact List.append_cancel_right (by rw [← h]; simp)

theorem getToken_ok (str : Option (List Byte)) : (getToken str).1.Ok := by
  unfold getToken getTokenD Kpstr.Ok
  split
  · simp
  · dsimp only
    split
    · simp
    · simp

theorem renRepl {t : Renames} {m : NameMap} (h : RenRep t m) (x : Kpstr) (hx : x.Ok) :
    (match renameFind t x with | some r => cstr r.dst | none => x.text) = m.apply x.text := by
  have := renFind_map h x hx
  unfold NameMap.apply
  rw [← this]
  cases renameFind t x <;> rfl

theorem rewrite_line {f : Renames} {m : NameMap} (h : RenRep f m) : ∀ (n : Nat) (s : List Byte), s.length ≤ n →
    atEnd (skipBlanks s) = false → Rewritten m s ((tokens (some s)).map Kpstr.text) (strDoRename f (some s)) := by
  intro n
  induction n with
  | zero =>
    intro s hl h
    have : s = [] := List.length_eq_zero_iff.mp (by omega)
    subst this; simp [skipBlanks, atEnd] at h
  | succ n ih =>
    intro s hl hs
    obtain ⟨b, t, r, hb, ht, hsp, hr, h1, h2⟩ := getTokenD_some delims s hs
    have h1' : (getToken (some s)).1 = ⟨t ++ r, t.length⟩ := h1
    have h2' : (getToken (some s)).2 = _ := h2
    have hrep := renRepl h (getToken (some s)).1 (getToken_ok _)
    rw [tokens_some, strDoRename_some, hrep, h1', h2', List.map_cons, text_append]
    dsimp only
    rw [List.drop_left]
    have hbs : s.takeWhile isBlank = b := by
      have e1 := (takeWhile_blank s).2
      have e2 : t ++ r = skipBlanks s := by
        have e1 : (getToken (some s)).1.s = skipBlanks s := by simp [getToken, getTokenD, hs]
        rw [h1'] at e1
        exact e1
      rw [← e2] at e1
      rw [List.append_assoc] at hsp
      exact List.append_cancel_right (e1.symm.trans hsp)
    rw [hbs]
    obtain ⟨hb', hr'⟩ := takeWhile_blank r
    have hrest : Rewritten m r ((tokens (if atEnd (skipBlanks r) = true then none else some (skipBlanks r))).map Kpstr.text)
        (r.takeWhile isBlank ++ strDoRename f (if atEnd (skipBlanks r) = true then none else some (skipBlanks r))) := by
      split
      · rename_i he
        rw [tokens_none, strDoRename_none, List.append_nil, List.map_nil]
        have := Rewritten.done (m := m) _ _ hb' ((atEnd_iff _).mp he)
        rw [← hr'] at this
        exact this
      · rename_i he
        have := rewritten_blank hb' (ih (skipBlanks r) (by
            have e1 := congrArg List.length hsp
            have e2 := congrArg List.length hr'
            have e3 : 0 < t.length := List.length_pos_iff.mpr ht
            simp only [List.length_append] at e1 e2
            omega) (by rw [skipBlanks_idem]; simpa using he))
        rw [← hr'] at this
        exact this
    have := Rewritten.tok (m := m) b t r _ _ hb ht hrest
    rw [← hsp] at this
    simpa [List.append_assoc] using this

/-- C43.  Rewriting a line with a table that agrees with the map `m` replaces each token by its new name in `m`, or
leaves it alone if it has none, and copies all the blanks.  A line with nothing but blanks is copied if the empty
string is not renamed. -/
theorem C43_line_rewritten (f : Renames) (m : NameMap) (h : RenRep f m) (line : List Byte) (he : m [] = none) :
    (Rewritten m line ((tokens (some line)).map Kpstr.text) (strDoRename f (some line))) ∨
      (∃ b r, line = b ++ r ∧ AllBlank b ∧ (r = [] ∨ r.head? = some 10#8) ∧ strDoRename f (some line) = b) := by
  by_cases hs : atEnd (skipBlanks line) = true
  · right
    obtain ⟨hb, hr⟩ := takeWhile_blank line
    refine ⟨_, _, hr, hb, (atEnd_iff _).mp hs, ?_⟩
    have hrep := renRepl h (getToken (some line)).1 (getToken_ok _)
    rw [strDoRename_some, hrep, show getToken (some line) = _ from getTokenD_end delims line hs, strDoRename_none]
    simp [Kpstr.text, NameMap.apply, he]
  · left
    exact rewrite_line h _ line (Nat.le_refl _) (by simpa using hs)

theorem no_nl {r : List Byte} (hr : r = [] ∨ r.head? = some 10#8) (hnl : 10#8 ∉ r) : r = [] := by
  rcases hr with e | e
  · exact e
  · cases r with
    | nil => rfl
    | cons c r =>
      simp at e
      subst e
      simp at hnl

theorem rewritten_same {m : NameMap} {line out : List Byte} {ts : List (List Byte)} (h : Rewritten m line ts out)
    (hnl : 10#8 ∉ line) (hts : ∀ t ∈ ts, m t = none) : out = line := by
  induction h with
  | done b r hb hr =>
    rw [no_nl hr (fun hc => hnl (by simp [hc])), List.append_nil]
  | tok b t rest out ts hb ht h ih =>
    rw [ih (fun hc => hnl (by simp [hc])) (fun t ht => hts t (by simp [ht]))]
    simp [NameMap.apply, hts t (by simp)]

/-- C43.  A line none of whose tokens is renamed (in particular every line if the table is empty) is unchanged. -/
theorem C43_unchanged (f : Renames) (m : NameMap) (h : RenRep f m) (line : List Byte) (hnl : 10#8 ∉ line)
    (he : m [] = none) (hm : ∀ t ∈ tokens (some line), m t.text = none) : strDoRename f (some line) = line := by
  rcases C43_line_rewritten f m h line he with hr | ⟨b, r, h1, _, h3, h4⟩
  · apply rewritten_same hr hnl
    intro t ht
    obtain ⟨x, hx, rfl⟩ := List.mem_map.mp ht
    exact hm x hx
  · rw [h4, h1, no_nl h3 (fun hc => hnl (by rw [h1]; simp [hc])), List.append_nil]

/-- C43 for every history of the table: each line is rewritten with the map the history gives. -/
theorem C43_history (ops : List RenOp) (hok : ∀ o ∈ ops, o.Ok) (m : NameMap) (hm : specRen (fun _ => none) ops = some m)
    (he : m [] = none) :
    ∃ f, runRen .nil ops = some f ∧ ∀ line : List Byte, 10#8 ∉ line →
      (Rewritten m line ((tokens (some line)).map Kpstr.text) (strDoRename f (some line)) ∨
        (AllBlank line ∧ strDoRename f (some line) = line)) ∧
      ((∀ t ∈ tokens (some line), m t.text = none) → strDoRename f (some line) = line) := by
  have := runRen_rep ops .nil _ renRep_nil hok
  rw [hm] at this
  obtain ⟨f, h1, h2⟩ := this
  refine ⟨f, h1, fun line hnl => ⟨?_, C43_unchanged f m h2 line hnl he⟩⟩
  rcases C43_line_rewritten f m h2 line he with hr | ⟨b, r, q1, q2, q3, q4⟩
  · exact Or.inl hr
  · right
    have : r = [] := no_nl q3 (fun hc => hnl (by rw [q1]; simp [hc]))
    subst this
    rw [List.append_nil] at q1
    exact ⟨by rw [q1]; exact q2, by rw [q4, q1]⟩

/-- When two tokens are the same text for the comparison: equal after renaming, or the second is the new name of the
first, or they are renamed to each other. -/
def SameToken (m0 m1 : NameMap) (a b : List Byte) : Prop :=
  match m0 a, m1 b with
  | some x, some y => x = y ∨ (x = b ∧ y = a)
  | some x, none => x = b
  | none, some _ => False
  | none, none => a = b

theorem tokenSame_iff {f0 f1 : Renames} {m0 m1 : NameMap} (h0 : RenRep f0 m0) (h1 : RenRep f1 m1) (a b : Kpstr)
    (ha : a.Ok) (hb : b.Ok) : tokenSame f0 f1 a b = true ↔ SameToken m0 m1 a.text b.text := by
  unfold tokenSame SameToken
  rw [← renFind_map h0 a ha, ← renFind_map h1 b hb]
  cases renameFind f0 a <;> cases renameFind f1 b <;>
    simp [kpstrcmp_zero, kpz_ok, kpz_text, ha, hb]

theorem strcmpAfterRename_some (f0 f1 : Renames) (a b : List Byte) : strcmpAfterRename f0 f1 (some a) (some b) =
    if tokenSame f0 f1 (getToken (some a)).1 (getToken (some b)).1 then
      strcmpAfterRename f0 f1 (getToken (some a)).2 (getToken (some b)).2 else 1 := by
  rw [strcmpAfterRename]

/-- The comparison of two lines: they count as the same exactly if they have the same number of tokens and the tokens are
the same one by one; blanks do not matter. -/
theorem C43_compare {f0 f1 : Renames} {m0 m1 : NameMap} (h0 : RenRep f0 m0) (h1 : RenRep f1 m1)
    (s0 s1 : Option (List Byte)) :
    (strcmpAfterRename f0 f1 s0 s1 = 0 ∨ strcmpAfterRename f0 f1 s0 s1 = 1) ∧
      (strcmpAfterRename f0 f1 s0 s1 = 0 ↔
        List.Forall₂ (fun a b => SameToken m0 m1 a.text b.text) (tokens s0) (tokens s1)) := by
  have key : ∀ (n : Nat) (s0 s1 : Option (List Byte)), s0.elim 0 (fun s => s.length + 1) ≤ n →
      (strcmpAfterRename f0 f1 s0 s1 = 0 ∨ strcmpAfterRename f0 f1 s0 s1 = 1) ∧
      (strcmpAfterRename f0 f1 s0 s1 = 0 ↔
        List.Forall₂ (fun a b => SameToken m0 m1 a.text b.text) (tokens s0) (tokens s1)) := by
    intro n
    induction n with
    | zero =>
      intro s0 s1 hl
      cases s0 with
      | some a => simp at hl
      | none =>
        cases s1 with
        | none => rw [strcmpAfterRename, tokens_none]; simp
        | some b => rw [strcmpAfterRename, tokens_none, tokens_some] <;> simp
    | succ n ih =>
      intro s0 s1 hl
      cases s0 with
      | none =>
        cases s1 with
        | none => rw [strcmpAfterRename, tokens_none]; simp
        | some b => rw [strcmpAfterRename, tokens_none, tokens_some] <;> simp
      | some a =>
        cases s1 with
        | none => rw [strcmpAfterRename, tokens_none, tokens_some] <;> simp
        | some b =>
          rw [strcmpAfterRename_some, tokens_some, tokens_some, List.forall₂_cons,
            ← tokenSame_iff h0 h1 _ _ (getToken_ok _) (getToken_ok _)]
          by_cases hs : tokenSame f0 f1 (getToken (some a)).1 (getToken (some b)).1 = true
          · rw [if_pos hs]
            have := ih (getToken (some a)).2 (getToken (some b)).2 (by
              simp only [Option.elim_some] at hl
              cases hq : (getToken (some a)).2 with
              | none => simp
              | some a' =>
                have := getTokenD_length delims hq
                simp only [Option.elim_some]
                omega)
            simp only [hs, true_and]
            exact this
          · rw [if_neg hs]
            simp [hs]
  exact key _ s0 s1 (Nat.le_refl _)

/-- Without renames lines are the same exactly if their tokens are. -/
theorem C43_compare_plain (s0 s1 : Option (List Byte)) :
    strcmpAfterRename .nil .nil s0 s1 = 0 ↔ (tokens s0).map Kpstr.text = (tokens s1).map Kpstr.text := by
  rw [(C43_compare renRep_nil renRep_nil s0 s1).2]
  simp only [SameToken]
  generalize tokens s0 = l0
  generalize tokens s1 = l1
  induction l0 generalizing l1 with
  | nil => cases l1 <;> simp
  | cons x l0 ih =>
    cases l1 with
    | nil => simp
    | cons y l1 => simp [ih]

example : (renameAdd .nil (kpz [102#8]) (kpz [103#8])).map (fun f =>
    (renameFind f (kpz [102#8]), renameFind f (kpz [104#8]))) = some (some ⟨[102#8], [103#8]⟩, none) := by decide +kernel

/-- A line with a renamed token: `call f` becomes `call g`. -/
example : ∃ f, renameAdd .nil (kpz [102#8]) (kpz [103#8]) = some f ∧
    strDoRename f (some [9#8, 99#8, 32#8, 32#8, 102#8]) = [9#8, 99#8, 32#8, 32#8, 103#8] := by
  refine ⟨.node .black .nil ⟨[102#8], [103#8]⟩ .nil, by decide +kernel, ?_⟩
  rw [strDoRename_some, show (getToken (some [9#8, 99#8, 32#8, 32#8, 102#8])).2 = some [102#8] by decide +kernel,
    strDoRename_some, show (getToken (some [102#8])).2 = none by decide +kernel, strDoRename_none]
  decide +kernel

end Verif
