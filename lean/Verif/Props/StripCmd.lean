import Verif.Model.StripCmd
/-
C101: `kpatch_strip` does exactly one action, the one that is named, on exactly the two files that are named.
-/
namespace Verif

/-! ### Specification -/

/-- How an action is named: by a letter, or by a word of which a first part will do. -/
def StripAct.letter : StripAct → Byte
  | .strip => 0x73#8
  | .relFixup => 0x72#8
  | .undoLink => 0x75#8

/-- strip, rel-fixup, undo-link -/
def StripAct.name : StripAct → List Byte
  | .strip => [0x73, 0x74, 0x72, 0x69, 0x70]
  | .relFixup => [0x72, 0x65, 0x6c, 0x2d, 0x66, 0x69, 0x78, 0x75, 0x70]
  | .undoLink => [0x75, 0x6e, 0x64, 0x6f, 0x2d, 0x6c, 0x69, 0x6e, 0x6b]

/-- The options: letters in one argument, a long name, the first `n` bytes of it, something unknown.  The letter `o`, with a value, stands
for nothing, either. -/
inductive StripPiece
  | letters (as : List StripAct)
  | long (a : StripAct) (n : Nat)
  | unknownLetter (as : List StripAct) (c : Byte) (rest : List Byte)
  | unknownLong (s : List Byte)

def StripPiece.render : StripPiece → List Byte
  | .letters as => 0x2d#8 :: as.map StripAct.letter
  | .long a n => 0x2d#8 :: 0x2d#8 :: a.name.take n
  | .unknownLetter as c rest => 0x2d#8 :: (as.map StripAct.letter ++ c :: rest)
  | .unknownLong s => 0x2d#8 :: 0x2d#8 :: s

def StripPiece.Valid : StripPiece → Prop
  | .letters as => as ≠ []
  | .long _ n => 0 < n
  | .unknownLetter as c rest => c ∉ [0x73#8, 0x72#8, 0x75#8] ∧ ¬ (as = [] ∧ c = 0x2d#8) ∧ (c = 0x6f#8 → rest ≠ [])
  | .unknownLong s => s ≠ [] ∧ ∀ a : StripAct, ¬ s <+: a.name

/-- The actions that the options name, in order; `none` if something is unknown. -/
def namedActs : List StripPiece → Option (List StripAct)
  | [] => some []
  | .letters as :: ps => (namedActs ps).map (as ++ ·)
  | .long a _ :: ps => (namedActs ps).map (a :: ·)
  | _ :: _ => none

/-- The command line: options, perhaps `--`, and files.  Without `--` the first file does not look like an option. -/
def stripLine (ps : List StripPiece) (dashes : Bool) (ws : List (List Byte)) : List (List Byte) :=
  ps.map StripPiece.render ++ (if dashes then [[0x2d#8, 0x2d#8]] else []) ++ ws

def WordFirst (ws : List (List Byte)) : Prop := ∀ w, ws.head? = some w → w.head? ≠ some 0x2d#8 ∨ w = [0x2d#8]

/-! ### Proofs -/

def actEvs (as : List StripAct) : List OptEv := as.map fun a => .opt a.letter []

theorem stripSpec_letter (a : StripAct) : stripSpec a.letter = some .flag := by cases a <;> rfl

theorem optCluster_acts (as : List StripAct) (cs : List Byte) :
    optCluster stripSpec (as.map StripAct.letter ++ cs) = (actEvs as ++ (optCluster stripSpec cs).1, (optCluster stripSpec cs).2) := by
  induction as with
  | nil => rfl
  | cons a as ih =>
    show optCluster stripSpec (a.letter :: (as.map StripAct.letter ++ cs)) = _
    rw [optCluster, stripSpec_letter]
    simp only [ih, actEvs, List.map_cons, List.cons_append]

theorem getoptsLong_cons (spec : Byte → Option OptKind) (names : List (List Byte × Byte)) (a : List Byte) (as : List (List Byte)) :
    getoptsLong spec names (a :: as) =
    if a = [0x2d#8, 0x2d#8] then ([], as)
    else if a.take 2 = [0x2d#8, 0x2d#8] then
      ((match longOpt names (a.drop 2) with | some c => .opt c [] | none => .bad) :: (getoptsLong spec names as).1, (getoptsLong spec names as).2)
    else if a.head? = some 0x2d#8 ∧ a.length > 1 then
      match optCluster spec a.tail, as with
      | (evs, none), as => (evs ++ (getoptsLong spec names as).1, (getoptsLong spec names as).2)
      | (evs, some _), [] => (evs ++ [.bad], [])
      | (evs, some c), b :: bs => (evs ++ .opt c b :: (getoptsLong spec names bs).1, (getoptsLong spec names bs).2)
    else ([], a :: as) := by
  rw [getoptsLong.eq_def]
  rfl

theorem letter_ne_dash (a : StripAct) : a.letter ≠ 0x2d#8 := by cases a <;> decide


/-- an argument with letters is not `--...` -/
theorem letters_not_long {as : List StripAct} {t : List Byte} (h : as = [] → ∀ c r, t = c :: r → c ≠ 0x2d#8) (hne : as.map StripAct.letter ++ t ≠ []) :
    let x := 0x2d#8 :: (as.map StripAct.letter ++ t)
    x ≠ [0x2d#8, 0x2d#8] ∧ x.take 2 ≠ [0x2d#8, 0x2d#8] ∧ x.head? = some 0x2d#8 ∧ x.length > 1 := by
  cases as with
  | nil =>
    cases t with
    | nil => exact absurd rfl hne
    | cons c r =>
      have := h rfl c r rfl
      simp [this]
  | cons a as =>
    have := letter_ne_dash a
    simp [this]

theorem longOpt_name (a : StripAct) {n : Nat} (hn : 0 < n) : longOpt stripLong (a.name.take n) = some a.letter := by
  have hcap : a.name.take n = a.name.take (min n 9) := by
    cases a <;> (simp only [StripAct.name]; rw [← List.take_take]; simp [List.take_of_length_le])
  rw [hcap]
  have : ∀ k, k ≤ 9 → 0 < k → longOpt stripLong (a.name.take k) = some a.letter := by
    intro k hk h0
    have : k = 1 ∨ k = 2 ∨ k = 3 ∨ k = 4 ∨ k = 5 ∨ k = 6 ∨ k = 7 ∨ k = 8 ∨ k = 9 := by omega
    rcases this with rfl | rfl | rfl | rfl | rfl | rfl | rfl | rfl | rfl <;> cases a <;> decide
  exact this _ (Nat.min_le_right _ _) (by omega)

theorem longOpt_unknown {s : List Byte} (h : ∀ a : StripAct, ¬ s <+: a.name) : longOpt stripLong s = none := by
  have h1 : ∀ p ∈ stripLong, p.1 ≠ s ∧ s.isPrefixOf p.1 = false := by
    intro p hp
    have : ∃ a : StripAct, p.1 = a.name := by
      simp only [stripLong, List.mem_cons, List.not_mem_nil, or_false] at hp
      rcases hp with rfl | rfl | rfl
      · exact ⟨.strip, rfl⟩
      · exact ⟨.relFixup, rfl⟩
      · exact ⟨.undoLink, rfl⟩
    obtain ⟨a, ha⟩ := this
    refine ⟨fun e => h a (by rw [← ha, e]; exact List.prefix_refl _), ?_⟩
    cases hb : s.isPrefixOf p.1 with
    | false => rfl
    | true => exact absurd (ha ▸ List.isPrefixOf_iff_prefix.1 hb) (h a)
  unfold longOpt
  have h2 : stripLong.find? (fun p => decide (p.1 = s)) = none := by
    rw [List.find?_eq_none]
    intro p hp
    simpa using (h1 p hp).1
  have h3 : stripLong.filter (fun p => s.isPrefixOf p.1) = [] := by
    rw [List.filter_eq_nil_iff]
    intro p hp
    simp [(h1 p hp).2]
  rw [h2, h3]
  simp

/-- the events of known options -/
theorem getoptsLong_known {ps : List StripPiece} {as : List StripAct} {dashes : Bool} {ws : List (List Byte)} (hv : ∀ p ∈ ps, p.Valid)
    (hn : namedActs ps = some as) (hw : dashes = false → WordFirst ws) :
    getoptsLong stripSpec stripLong (stripLine ps dashes ws) = (actEvs as, ws) := by
  induction ps generalizing as with
  | nil =>
    cases hn
    cases dashes with
    | true =>
      show getoptsLong _ _ ([0x2d#8, 0x2d#8] :: ws) = _
      rw [getoptsLong_cons, if_pos rfl]
      rfl
    | false =>
      show getoptsLong _ _ ws = _
      cases ws with
      | nil => rw [getoptsLong]; rfl
      | cons w ws =>
        have := hw rfl w rfl
        rw [getoptsLong_cons, if_neg, if_neg, if_neg]
        · rfl
        · rintro ⟨h1, h2⟩
          rcases this with h | h
          · exact h h1
          · subst h; simp at h2
        · intro h1
          cases w with
          | nil => cases h1
          | cons x w =>
            rcases this with h | h
            · simp at h1 h; exact h h1.1
            · rw [h] at h1; cases h1
        · intro h1
          rcases this with h | h
          · subst h1; exact h rfl
          · rw [h] at h1; cases h1
  | cons p ps ih =>
    have hvp := hv p (by simp)
    have e : stripLine (p :: ps) dashes ws = p.render :: stripLine ps dashes ws := by simp [stripLine]
    rw [e]
    cases p with
    | letters bs =>
      simp only [namedActs, Option.map_eq_some_iff] at hn
      obtain ⟨cs, hcs, rfl⟩ := hn
      have h := letters_not_long (as := bs) (t := []) (by intro h; exact absurd h hvp) (by rw [List.append_nil]; exact fun h => hvp (List.map_eq_nil_iff.1 h))
      simp only [List.append_nil] at h
      have hc := optCluster_acts bs []
      rw [List.append_nil, optCluster, List.append_nil] at hc
      dsimp only at hc
      show getoptsLong _ _ ((0x2d#8 :: bs.map StripAct.letter) :: _) = _
      rw [getoptsLong_cons, if_neg h.1, if_neg h.2.1, if_pos h.2.2, List.tail_cons, hc]
      dsimp only
      rw [ih (fun q hq => hv q (by simp [hq])) hcs]
      simp [actEvs]
    | long a n =>
      simp only [namedActs, Option.map_eq_some_iff] at hn
      obtain ⟨cs, hcs, rfl⟩ := hn
      have hne : a.name.take n ≠ [] := by
        intro h
        have := congrArg List.length h
        have h0 : 0 < n := hvp
        cases a <;> simp [StripAct.name] at this <;> omega
      show getoptsLong _ _ ((0x2d#8 :: 0x2d#8 :: a.name.take n) :: _) = _
      rw [getoptsLong_cons, if_neg (by simpa using hne), if_pos (by simp)]
      have : (0x2d#8 :: 0x2d#8 :: a.name.take n).drop 2 = a.name.take n := rfl
      rw [this, longOpt_name a hvp, ih (fun q hq => hv q (by simp [hq])) hcs]
      rfl
    | unknownLetter _ _ _ => cases hn
    | unknownLong _ => cases hn

/-- an event at which the loop gives up -/
def Refusing (e : OptEv) : Prop := e = .bad ∨ ∃ v, e = .opt 0x6f#8 v

theorem getoptsLong_bad {ps : List StripPiece} {dashes : Bool} {ws : List (List Byte)} (hv : ∀ p ∈ ps, p.Valid) (hn : namedActs ps = none) :
    ∃ e ∈ (getoptsLong stripSpec stripLong (stripLine ps dashes ws)).1, Refusing e := by
  induction ps with
  | nil => cases hn
  | cons p ps ih =>
    have hvp := hv p (by simp)
    have e : stripLine (p :: ps) dashes ws = p.render :: stripLine ps dashes ws := by simp [stripLine]
    rw [e]
    have ih' := fun h => ih (fun q hq => hv q (by simp [hq])) h
    cases p with
    | letters bs =>
      have hn' : namedActs ps = none := by simpa [namedActs] using hn
      have h := letters_not_long (as := bs) (t := []) (by intro h; exact absurd h hvp) (by rw [List.append_nil]; exact fun h => hvp (List.map_eq_nil_iff.1 h))
      simp only [List.append_nil] at h
      have hc := optCluster_acts bs []
      rw [List.append_nil, optCluster, List.append_nil] at hc
      dsimp only at hc
      show ∃ e ∈ (getoptsLong _ _ ((0x2d#8 :: bs.map StripAct.letter) :: _)).1, Refusing e
      rw [getoptsLong_cons, if_neg h.1, if_neg h.2.1, if_pos h.2.2, List.tail_cons, hc]
      obtain ⟨e, he, hr⟩ := ih' hn'
      exact ⟨e, List.mem_append_right _ he, hr⟩
    | long a n =>
      have hn' : namedActs ps = none := by simpa [namedActs] using hn
      have hne : a.name.take n ≠ [] := by
        intro h
        have := congrArg List.length h
        have h0 : 0 < n := hvp
        cases a <;> simp [StripAct.name] at this <;> omega
      show ∃ e ∈ (getoptsLong _ _ ((0x2d#8 :: 0x2d#8 :: a.name.take n) :: _)).1, Refusing e
      rw [getoptsLong_cons, if_neg (by simpa using hne), if_pos (by simp)]
      obtain ⟨e, he, hr⟩ := ih' hn'
      exact ⟨e, List.mem_cons_of_mem _ he, hr⟩
    | unknownLetter as c r =>
      have h := letters_not_long (as := as) (t := c :: r) (by
        rintro rfl c' r' h
        cases h
        exact fun hc => hvp.2.1 ⟨rfl, hc⟩) (by simp)
      have hc3 := hvp.1
      simp only [List.mem_cons, List.not_mem_nil, or_false, not_or] at hc3
      show ∃ e ∈ (getoptsLong _ _ ((0x2d#8 :: (as.map StripAct.letter ++ c :: r)) :: _)).1, Refusing e
      rw [getoptsLong_cons, if_neg h.1, if_neg h.2.1, if_pos h.2.2, List.tail_cons, optCluster_acts, optCluster]
      by_cases ho : c = 0x6f#8
      · have hs : stripSpec c = some .value := by rw [ho]; rfl
        rw [hs]
        refine ⟨.opt c r, ?_, Or.inr ⟨r, by rw [ho]⟩⟩
        simp [hvp.2.2 ho]
      · have hs : stripSpec c = none := by simp [stripSpec, hc3, ho]
        rw [hs]
        refine ⟨.bad, ?_, Or.inl rfl⟩
        dsimp only
        cases (optCluster stripSpec r).2 with
        | none => simp
        | some d => cases stripLine ps dashes ws <;> simp
    | unknownLong s =>
      show ∃ e ∈ (getoptsLong _ _ ((0x2d#8 :: 0x2d#8 :: s) :: _)).1, Refusing e
      rw [getoptsLong_cons, if_neg (by simpa using hvp.1), if_pos (by simp)]
      have : (0x2d#8 :: 0x2d#8 :: s).drop 2 = s := rfl
      rw [this, longOpt_unknown hvp.2]
      exact ⟨.bad, by simp, Or.inl rfl⟩

theorem stripLoop_acts (as : List StripAct) (m : Option StripAct) :
    stripLoop (actEvs as) m = (match as with
      | [] => some m
      | [a] => if m.isSome then none else some (some a)
      | _ => none) := by
  induction as generalizing m with
  | nil => cases m <;> rfl
  | cons a as ih =>
    have e : stripLoop (actEvs (a :: as)) m = if m.isSome then none else stripLoop (actEvs as) (some a) := by
      cases a <;> rfl
    rw [e]
    cases m with
    | some x => cases as <;> rfl
    | none =>
      rw [if_neg (by simp), ih]
      match as with
      | [] => rfl
      | [_] => rfl
      | _ :: _ :: _ => rfl

theorem stripLoop_bad {evs : List OptEv} (h : ∃ e ∈ evs, Refusing e) (m : Option StripAct) : stripLoop evs m = none := by
  induction evs generalizing m with
  | nil => obtain ⟨e, he, -⟩ := h; cases he
  | cons e evs ih =>
    obtain ⟨x, hx, hr⟩ := h
    cases e with
    | bad => rfl
    | opt c v =>
      rw [stripLoop]
      rcases List.mem_cons.1 hx with rfl | hx
      · rcases hr with h | ⟨v', h⟩
        · cases h
        · cases h
          rfl
      · simp only [ih ⟨x, hx, hr⟩, ite_self]

/-! ### Theorems -/

/-- C101: for every command line with one action, named in whatever way, and two files: both are opened, the second is created only
for `strip`, this action runs on these files and on nothing else, and its result is the exit status; if one cannot be opened, nothing runs,
and the second is not opened unless the first was. -/
theorem C101_one_action (canOpen : List Byte → Bool) (ret : StripAct → List Byte → List Byte → Nat) {ps : List StripPiece} (hv : ∀ p ∈ ps, p.Valid)
    {m : StripAct} (hn : namedActs ps = some [m]) {dashes : Bool} {a b : List Byte} (hw : dashes = false → WordFirst [a, b]) :
    let r := stripMain canOpen ret (stripLine ps dashes [a, b])
    (canOpen a = true → canOpen b = true → r = (ret m a b, [.opened a false, .opened b (m == .strip), .did m a b])) ∧
    (canOpen a = false → r = (255, [])) ∧ (canOpen a = true → canOpen b = false → r = (255, [.opened a false])) := by
  have e := getoptsLong_known hv hn hw
  unfold stripMain
  rw [e]
  simp only [stripLoop_acts]
  refine ⟨fun h1 h2 => ?_, fun h1 => ?_, fun h1 h2 => ?_⟩
  · simp [h1, h2]
  · simp [h1]
  · simp [h1, h2]

/-- C101: with something unknown, without an action, with two of them, and with any other number of files, the exit status is not 0,
and no file is opened. -/
theorem C101_refused (canOpen : List Byte → Bool) (ret : StripAct → List Byte → List Byte → Nat) {ps : List StripPiece} (hv : ∀ p ∈ ps, p.Valid)
    {dashes : Bool} {ws : List (List Byte)} (hw : dashes = false → WordFirst ws) (hno : (∀ m, namedActs ps ≠ some [m]) ∨ ws.length ≠ 2) :
    stripMain canOpen ret (stripLine ps dashes ws) = (255, []) := by
  unfold stripMain
  cases hn : namedActs ps with
  | none => rw [stripLoop_bad (getoptsLong_bad hv hn)]
  | some as =>
    rw [getoptsLong_known hv hn hw]
    simp only [stripLoop_acts]
    match as with
    | [] => rfl
    | [m] =>
      have hl : ws.length ≠ 2 := by
        rcases hno with h | h
        · exact absurd hn (h m)
        · exact h
      match ws with
      | [] => rfl
      | [_] => rfl
      | [_, _] => exact absurd rfl hl
      | _ :: _ :: _ :: _ => rfl
    | _ :: _ :: _ => rfl

/-- C101 is violated: the usage offers `-u` and `--undo-link` with one file; this is refused. -/
theorem C101_violated_usage (canOpen : List Byte → Bool) (ret : StripAct → List Byte → List Byte → Nat) (a : List Byte)
    (ha : a.head? ≠ some 0x2d#8) :
    stripMain canOpen ret [[0x2d#8, 0x75#8], a] = (255, []) := by
  refine C101_refused canOpen ret (ps := [.letters [.undoLink]]) (dashes := false) (ws := [a]) (by simp [StripPiece.Valid]) ?_ (Or.inr (by simp))
  intro _ w hw
  cases hw
  exact Or.inl ha

/-! ### Concrete cases -/

/-- `kpatch_strip --rel-fixup a b`, as `libcare-patch-make` calls it -/
example : stripMain (fun _ => true) (fun _ _ _ => 0) (stripLine [.long .relFixup 9] false [[0x61], [0x62]]) =
    (0, [.opened [0x61] false, .opened [0x62] false, .did .relFixup [0x61] [0x62]]) :=
  (C101_one_action (fun _ => true) (fun _ _ _ => 0) (ps := [.long .relFixup 9]) (by simp [StripPiece.Valid]) rfl
    (by intro _ w hw; cases hw; exact Or.inl (by decide))).1 rfl rfl

/-- `kpatch_strip -s --str -- a b`: two actions, although the same. -/
example : stripMain (fun _ => true) (fun _ _ _ => 0) (stripLine [.letters [.strip], .long .strip 3] true [[0x61], [0x62]]) = (255, []) :=
  C101_refused _ _ (by simp [StripPiece.Valid]) (by intro h; cases h) (Or.inl (by simp [namedActs]))

/-- `kpatch_strip -sx a b` -/
example : stripMain (fun _ => true) (fun _ _ _ => 0) (stripLine [.unknownLetter [.strip] 0x78#8 []] true [[0x61], [0x62]]) = (255, []) :=
  C101_refused _ _ (by simp [StripPiece.Valid]) (by intro h; cases h) (Or.inl (by simp [namedActs]))

/-- `kpatch_strip -s -ox a b` -/
example : stripMain (fun _ => true) (fun _ _ _ => 0) (stripLine [.letters [.strip], .unknownLetter [] 0x6f#8 [0x78]] true [[0x61], [0x62]]) = (255, []) :=
  C101_refused _ _ (by simp [StripPiece.Valid]) (by intro h; cases h) (Or.inl (by simp [namedActs]))

end Verif
