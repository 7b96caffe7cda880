import Verif.Spec.GenCmd
/-
C103: `kpatch_gensrc` does what its command line asks for, or refuses it.
-/
namespace Verif

/-! ### OptName -/

def allGenOpts : List GenOpt :=
  [.debug, .os, .arch, .input, .output, .test, .filter, .ehFrame, .exceptTable, .cfi, .newlines, .ignore, .unlink, .adapt, .gotpcrel, .global]

theorem mem_allGenOpts (o : GenOpt) : o ∈ allGenOpts := by cases o <;> decide

theorem genLong_eq : genLong = allGenOpts.map fun o => (o.name, o) := by decide +kernel

theorem genName_inj : ∀ o ∈ allGenOpts, ∀ o' ∈ allGenOpts, o.name = o'.name → o = o' := by decide +kernel

theorem filter_single {α : Type} [DecidableEq α] {l : List α} (hn : l.Nodup) {q : α → Bool} {x : α} (hx : x ∈ l) (hq : q x = true)
    (hu : ∀ y ∈ l, q y = true → y = x) : l.filter q = [x] := by
  induction l with
  | nil => cases hx
  | cons a l ih =>
    rw [List.nodup_cons] at hn
    rcases List.mem_cons.mp hx with rfl | hx
    · rw [List.filter_cons_of_pos hq, List.filter_eq_nil_iff.mpr ?_]
      exact fun y hy hqy => hn.1 (hu y (List.mem_cons_of_mem _ hy) hqy ▸ hy)
    · have : q a ≠ true := fun h => hn.1 (by rw [hu a (by simp) h]; exact hx)
      rw [List.filter_cons_of_neg this]
      exact ih hn.2 hx fun y hy => hu y (by simp [hy])

theorem genFind_names {o : GenOpt} {s : List Byte} (h : OptName o s) : genFind s = some o := by
  unfold genFind
  cases hf : genLong.find? fun p => p.1 = s with
  | some p =>
    have h1 := List.find?_some hf
    have h2 := List.mem_of_find?_eq_some hf
    rw [genLong_eq, List.mem_map] at h2
    obtain ⟨o', _, rfl⟩ := h2
    have h1 : o'.name = s := by simpa using h1
    show some o' = some o
    rcases h with h | ⟨_, hu⟩
    · rw [genName_inj o' (mem_allGenOpts _) o (mem_allGenOpts _) (h1.trans h)]
    · rw [hu o' (by rw [h1]; exact List.prefix_refl _)]
  | none =>
    rw [List.find?_eq_none] at hf
    rcases h with h | ⟨hp, hu⟩
    · exact absurd (hf (o.name, o) (by rw [genLong_eq]; exact List.mem_map.mpr ⟨o, mem_allGenOpts _, rfl⟩)) (by simp [h])
    · have : genLong.filter (fun p => s.isPrefixOf p.1) = [(o.name, o)] := by
        rw [genLong_eq]
        refine filter_single (by decide +kernel) (List.mem_map.mpr ⟨o, mem_allGenOpts _, rfl⟩) (by simpa using hp) fun y hy hq => ?_
        obtain ⟨o', _, rfl⟩ := List.mem_map.mp hy
        rw [hu o' (by simpa using hq)]
      rw [this]

theorem genFind_none {s : List Byte} (h : ∀ o, ¬ OptName o s) : genFind s = none := by
  unfold genFind
  cases hf : genLong.find? fun p => p.1 = s with
  | some p =>
    have h1 := List.find?_some hf
    have h2 := List.mem_of_find?_eq_some hf
    rw [genLong_eq, List.mem_map] at h2
    obtain ⟨o', _, rfl⟩ := h2
    have h1 : o'.name = s := by simpa using h1
    exact absurd (Or.inl h1.symm) (h o')
  | none =>
    show (match genLong.filter fun p => s.isPrefixOf p.1 with | [p] => some p.2 | _ => none) = none
    split
    · rename_i p hp
      exfalso
      have hm : p ∈ genLong.filter fun p => s.isPrefixOf p.1 := by rw [hp]; simp
      rw [List.mem_filter] at hm
      obtain ⟨hm, hq⟩ := hm
      rw [genLong_eq] at hm
      obtain ⟨o, _, rfl⟩ := List.mem_map.mp hm
      refine h o (Or.inr ⟨by simpa using hq, fun o' ho' => ?_⟩)
      have hm' : (o'.name, o') ∈ genLong.filter fun p => s.isPrefixOf p.1 := by
        rw [List.mem_filter, genLong_eq]
        exact ⟨List.mem_map.mpr ⟨o', mem_allGenOpts _, rfl⟩, by simpa using ho'⟩
      rw [hp, List.mem_singleton] at hm'
      simp only [Prod.mk.injEq] at hm'
      exact hm'.2
    · rfl

theorem names_prefix {o : GenOpt} {s : List Byte} (h : OptName o s) : s <+: o.name := by
  rcases h with rfl | h
  · exact List.prefix_refl _
  · exact h.1

theorem names_eq {o : GenOpt} {s : List Byte} (h : OptName o s) : 0x3d#8 ∉ s := fun hc => by
  have : ∀ o ∈ allGenOpts, 0x3d#8 ∉ o.name := by decide +kernel
  exact this o (mem_allGenOpts _) ((names_prefix h).subset hc)

theorem valued_iff (o : GenOpt) : o.valued ↔ o.hasArg = true := by cases o <;> simp [GenOpt.valued, GenOpt.hasArg]

theorem letter_short {o : GenOpt} {c : Byte} (h : o.letter = some c) : genShort c = some o := by
  cases o <;> simp [GenOpt.letter] at h <;> subst h <;> rfl

theorem short_letter {c : Byte} (h : ∀ o : GenOpt, o.letter ≠ some c) : genShort c = none := by
  unfold genShort
  have h1 := h .debug; have h2 := h .os; have h3 := h .arch; have h4 := h .input; have h5 := h .output; have h6 := h .filter
  simp only [GenOpt.letter, ne_eq, Option.some.injEq] at h1 h2 h3 h4 h5 h6
  rw [if_neg (Ne.symm h1), if_neg (Ne.symm h2), if_neg (Ne.symm h4), if_neg (Ne.symm h5), if_neg (Ne.symm h3), if_neg (Ne.symm h6)]

/-! ### The events -/

def evsOf (os : List (GenOpt × List Byte)) : List GenEv := os.map fun p => .opt p.1 p.2

theorem genCluster_flags (n : Nat) (cs : List Byte) : genCluster (List.replicate n 0x66#8 ++ cs) =
    (evsOf (List.replicate n (.filter, [])) ++ (genCluster cs).1, (genCluster cs).2) := by
  induction n with
  | zero => rfl
  | succ n ih =>
    rw [List.replicate_succ, List.cons_append, genCluster, show genShort 0x66#8 = some .filter from rfl]
    simp only [GenOpt.hasArg, Bool.false_eq_true, ↓reduceIte, ih, evsOf, List.replicate_succ, List.map_cons, List.cons_append]

theorem genGetopts_cons (a : List Byte) (as : List (List Byte)) : genGetopts (a :: as) =
    if a = [0x2d#8, 0x2d#8] then ([], as)
    else if a.take 2 = [0x2d#8, 0x2d#8] then
      match genLongEv (a.drop 2), as with
      | .inl e, as => (e :: (genGetopts as).1, (genGetopts as).2)
      | .inr _, [] => ([.bad], [])
      | .inr o, b :: bs => (.opt o b :: (genGetopts bs).1, (genGetopts bs).2)
    else if a.head? = some 0x2d#8 ∧ a.length > 1 then
      match genCluster a.tail, as with
      | (evs, none), as => (evs ++ (genGetopts as).1, (genGetopts as).2)
      | (evs, some _), [] => (evs ++ [.bad], [])
      | (evs, some o), b :: bs => (evs ++ .opt o b :: (genGetopts bs).1, (genGetopts bs).2)
    else ((genGetopts as).1, a :: (genGetopts as).2) := by
  rw [genGetopts.eq_def]
  rfl

theorem genGetopts_long {s : List Byte} (hs : s ≠ []) (as : List (List Byte)) : genGetopts ((0x2d#8 :: 0x2d#8 :: s) :: as) =
    match genLongEv s, as with
      | .inl e, as => (e :: (genGetopts as).1, (genGetopts as).2)
      | .inr _, [] => ([.bad], [])
      | .inr o, b :: bs => (.opt o b :: (genGetopts bs).1, (genGetopts bs).2) := by
  rw [genGetopts_cons, if_neg (by simpa using hs), if_pos (by simp)]
  rfl

theorem genGetopts_short {c : Byte} {t : List Byte} (hc : c ≠ 0x2d#8) (as : List (List Byte)) : genGetopts ((0x2d#8 :: c :: t) :: as) =
    match genCluster (c :: t), as with
      | (evs, none), as => (evs ++ (genGetopts as).1, (genGetopts as).2)
      | (evs, some _), [] => (evs ++ [.bad], [])
      | (evs, some o), b :: bs => (evs ++ .opt o b :: (genGetopts bs).1, (genGetopts bs).2) := by
  rw [genGetopts_cons, if_neg (by simp [hc]), if_neg (by simp [hc]), if_pos (by simp)]
  rfl

/-- The letters in front and one more. -/
theorem genGetopts_letters {n : Nat} {c : Byte} {t : List Byte} (hc : n = 0 → c ≠ 0x2d#8) (as : List (List Byte)) :
    genGetopts ((0x2d#8 :: (List.replicate n 0x66#8 ++ c :: t)) :: as) =
    match (evsOf (List.replicate n (.filter, [])) ++ (genCluster (c :: t)).1, (genCluster (c :: t)).2), as with
      | (evs, none), as => (evs ++ (genGetopts as).1, (genGetopts as).2)
      | (evs, some _), [] => (evs ++ [.bad], [])
      | (evs, some o), b :: bs => (evs ++ .opt o b :: (genGetopts bs).1, (genGetopts bs).2) := by
  rw [← genCluster_flags]
  cases n with
  | zero => exact genGetopts_short (hc rfl) as
  | succ n => rw [List.replicate_succ, List.cons_append]; exact genGetopts_short (by decide) as

theorem letter_dash {o : GenOpt} {c : Byte} (h : o.letter = some c) : c ≠ 0x2d#8 := by
  cases o <;> simp [GenOpt.letter] at h <;> subst h <;> decide

theorem genLongEv_plain {s : List Byte} (h : 0x3d#8 ∉ s) : genLongEv s =
    match genFind s with
    | none => .inl .bad
    | some o => if o.hasArg then .inr o else .inl (.opt o []) := by
  have ht : s.takeWhile (fun c => c ≠ 0x3d#8) = s := by
    induction s with
    | nil => rfl
    | cons c s ih =>
      rw [List.mem_cons, not_or] at h
      rw [List.takeWhile_cons, if_pos (by simpa using Ne.symm h.1), ih h.2]
  unfold genLongEv
  simp only [ht, List.drop_length]
  cases genFind s <;> rfl

theorem genLongEv_eq {s v : List Byte} (h : 0x3d#8 ∉ s) : genLongEv (s ++ 0x3d#8 :: v) =
    match genFind s with
    | none => .inl .bad
    | some o => if o.hasArg then .inl (.opt o v) else .inl .bad := by
  have ht : (s ++ 0x3d#8 :: v).takeWhile (fun c => c ≠ 0x3d#8) = s := by
    rw [List.takeWhile_append_of_pos fun c hc => by simpa using fun e : c = 0x3d#8 => h (e ▸ hc)]
    simp
  unfold genLongEv
  simp only [ht, List.drop_left]
  cases genFind s <;> rfl

theorem genGetopts_piece {p : GenPiece} (hv : p.Valid) (hk : p.known = true) (rest : List (List Byte)) :
    genGetopts (p.render ++ rest) = (evsOf p.opts ++ (genGetopts rest).1, p.words ++ (genGetopts rest).2) := by
  cases p with
  | sep n o c v =>
    obtain ⟨h1, h2⟩ := hv
    rw [valued_iff] at h2
    show genGetopts ((0x2d#8 :: (List.replicate n 0x66#8 ++ c :: [])) :: v :: rest) = _
    rw [genGetopts_letters (fun _ => letter_dash h1)]
    simp [genCluster, letter_short h1, h2, GenPiece.opts, GenPiece.words, evsOf]
  | glued n o c v =>
    obtain ⟨h1, h2, h3⟩ := hv
    rw [valued_iff] at h2
    show genGetopts ((0x2d#8 :: (List.replicate n 0x66#8 ++ c :: v)) :: rest) = _
    rw [genGetopts_letters (fun _ => letter_dash h1)]
    simp [genCluster, letter_short h1, h2, h3, GenPiece.opts, GenPiece.words, evsOf]
  | flags n =>
    obtain ⟨n, rfl⟩ : ∃ k, n = k + 1 := ⟨n - 1, by have : 0 < n := hv; omega⟩
    show genGetopts ((0x2d#8 :: (List.replicate (n + 1) 0x66#8)) :: rest) = _
    rw [List.replicate_succ', genGetopts_letters (fun _ => by decide)]
    simp only [genCluster, show genShort 0x66#8 = some .filter from rfl, GenOpt.hasArg, GenPiece.opts, GenPiece.words, evsOf,
      List.replicate_succ', List.map_append]
    simp
  | longSep o s v =>
    obtain ⟨h1, h2, h3⟩ := hv
    rw [valued_iff] at h3
    show genGetopts ((0x2d#8 :: 0x2d#8 :: s) :: v :: rest) = _
    rw [genGetopts_long h2, genLongEv_plain (names_eq h1), genFind_names h1]
    simp [h3, GenPiece.opts, GenPiece.words, evsOf]
  | longEq o s v =>
    obtain ⟨h1, h2, h3⟩ := hv
    rw [valued_iff] at h3
    show genGetopts ((0x2d#8 :: 0x2d#8 :: (s ++ 0x3d#8 :: v)) :: rest) = _
    rw [genGetopts_long (by simp), genLongEv_eq (names_eq h1), genFind_names h1]
    simp [h3, GenPiece.opts, GenPiece.words, evsOf]
  | longFlag o s =>
    obtain ⟨h1, h2, h3⟩ := hv
    rw [valued_iff] at h3
    show genGetopts ((0x2d#8 :: 0x2d#8 :: s) :: rest) = _
    rw [genGetopts_long h2, genLongEv_plain (names_eq h1), genFind_names h1]
    simp [h3, GenPiece.opts, GenPiece.words, evsOf]
  | word w =>
    show genGetopts (w :: rest) = _
    rw [genGetopts_cons]
    rcases hv with h | rfl
    · rw [if_neg (by rintro rfl; simp at h), if_neg ?_, if_neg (by simp [h])]
      · rfl
      · intro e
        cases w with
        | nil => simp at e
        | cons c cs => simp at e; simp [e.1] at h
    · rfl
  | badLetter n c r => cases hk
  | badLong s => cases hk
  | badValue o s v => cases hk

theorem genGetopts_args {ps : List GenPiece} {t : GenTail} (hv : ∀ p ∈ ps, p.Valid) (hk : ∀ p ∈ ps, p.known = true) (ht : t.known = true) :
    genGetopts (genArgs ps t) = (evsOf (ps.flatMap GenPiece.opts), ps.flatMap GenPiece.words ++ t.words) := by
  induction ps with
  | nil =>
    show genGetopts t.render = _
    cases t with
    | nothing => rw [GenTail.render, genGetopts.eq_def]; rfl
    | dashes ws => rw [GenTail.render, genGetopts_cons]; rfl
    | missing n o c => cases ht
    | missingLong o s => cases ht
  | cons p ps ih =>
    have : genArgs (p :: ps) t = p.render ++ genArgs ps t := by simp [genArgs]
    rw [this, genGetopts_piece (hv p (by simp)) (hk p (by simp)), ih (fun q hq => hv q (by simp [hq])) (fun q hq => hk q (by simp [hq]))]
    simp [evsOf]

theorem genGetopts_bad {ps : List GenPiece} {t : GenTail} (hv : ∀ p ∈ ps, p.Valid) (htv : t.Valid)
    (hb : (∃ p ∈ ps, p.known = false) ∨ t.known = false) : .bad ∈ (genGetopts (genArgs ps t)).1 := by
  induction ps with
  | nil =>
    have hb : t.known = false := by simpa using hb
    show _ ∈ (genGetopts t.render).1
    cases t with
    | nothing => cases hb
    | dashes ws => cases hb
    | missing n o c =>
      obtain ⟨h1, h2⟩ := htv
      rw [valued_iff] at h2
      show _ ∈ (genGetopts [0x2d#8 :: (List.replicate n 0x66#8 ++ c :: [])]).1
      rw [genGetopts_letters (fun _ => letter_dash h1)]
      simp [genCluster, letter_short h1, h2]
    | missingLong o s =>
      obtain ⟨h1, h2, h3⟩ := htv
      rw [valued_iff] at h3
      show _ ∈ (genGetopts [0x2d#8 :: 0x2d#8 :: s]).1
      rw [genGetopts_long h2, genLongEv_plain (names_eq h1), genFind_names h1]
      simp [h3]
  | cons p ps ih =>
    have he : genArgs (p :: ps) t = p.render ++ genArgs ps t := by simp [genArgs]
    rw [he]
    cases hk : p.known with
    | true =>
      rw [genGetopts_piece (hv p (by simp)) hk]
      refine List.mem_append.mpr (Or.inr (ih (fun q hq => hv q (by simp [hq])) ?_))
      rcases hb with ⟨q, hq, hq'⟩ | hb
      · rcases List.mem_cons.mp hq with rfl | hq
        · rw [hk] at hq'; cases hq'
        · exact Or.inl ⟨q, hq, hq'⟩
      · exact Or.inr hb
    | false =>
      have hvp := hv p (by simp)
      generalize genArgs ps t = rest
      cases p with
      | badLetter n c r =>
        obtain ⟨h1, h2⟩ := hvp
        show _ ∈ (genGetopts ((0x2d#8 :: (List.replicate n 0x66#8 ++ c :: r)) :: rest)).1
        rw [genGetopts_letters h2, genCluster, short_letter h1]
        rcases genCluster r with ⟨evs, _ | o⟩
        · simp
        · cases rest <;> simp
      | badLong s =>
        obtain ⟨h1, h2, h3⟩ := hvp
        show _ ∈ (genGetopts ((0x2d#8 :: 0x2d#8 :: s) :: rest)).1
        rw [genGetopts_long h2, genLongEv_plain h3, genFind_none h1]
        simp
      | badValue o s v =>
        obtain ⟨h1, h2, h3⟩ := hvp
        rw [valued_iff] at h3
        show _ ∈ (genGetopts ((0x2d#8 :: 0x2d#8 :: (s ++ 0x3d#8 :: v)) :: rest)).1
        rw [genGetopts_long (by simp), genLongEv_eq (names_eq h1), genFind_names h1]
        simp [h3]
      | _ => cases hk

/-! ### The loop -/

theorem genLoop_bad (create : List Byte → Bool) {evs : List GenEv} (hb : .bad ∈ evs) (fs : GenFs) (s : GenSet) :
    ∃ fs' st, genLoop create evs fs s = (fs', .inl st) ∧ st ≠ 0 := by
  induction evs generalizing fs s with
  | nil => cases hb
  | cons e evs ih =>
    cases e with
    | bad => exact ⟨fs, 255, rfl, by decide⟩
    | opt o v =>
      rw [genLoop]
      cases h : genStep create fs s o v with
      | none => exact ⟨fs, 1, rfl, by decide⟩
      | some r => exact ih (by simpa using hb) r.1 r.2

theorem genLoop_inl (create : List Byte → Bool) {evs : List GenEv} {fs fs' : GenFs} {s : GenSet} {st : Nat}
    (h : genLoop create evs fs s = (fs', .inl st)) : st ≠ 0 := by
  induction evs generalizing fs s with
  | nil => simp [genLoop] at h
  | cons e evs ih =>
    cases e with
    | bad => simp [genLoop] at h; omega
    | opt o v =>
      rw [genLoop] at h
      cases hs : genStep create fs s o v with
      | none => simp [hs] at h; omega
      | some r => rw [hs] at h; exact ih h

theorem genLoop_inr (create : List Byte → Bool) {os : List (GenOpt × List Byte)} {fs fs' : GenFs} {s s' : GenSet}
    (h : genLoop create (evsOf os) fs s = (fs', .inr s')) (h2 : s.inputs.length ≤ 2) :
    s'.inputs.length ≤ 2 ∧ s'.inputs.length = s.inputs.length + (optVals .input os).length ∧ s'.filter = (s.filter || optGiven .filter os)
      ∧ s'.out = (optVals .output os).getLast?.or s.out ∧ (∀ v ∈ optVals .output os, create v = true)
      ∧ (∀ i ∈ optVals .input os, fs i = none → i ∈ optVals .output os) := by
  induction os generalizing fs s with
  | nil =>
    simp only [evsOf, List.map_nil, genLoop, Prod.mk.injEq, Sum.inr.injEq] at h
    obtain ⟨rfl, rfl⟩ := h
    simp [optVals, optGiven, h2]
  | cons p os ih =>
    obtain ⟨o, v⟩ := p
    rw [evsOf, List.map_cons, genLoop] at h
    cases hs : genStep create fs s o v with
    | none => rw [hs] at h; simp at h
    | some r =>
      obtain ⟨f, t⟩ := r
      rw [hs] at h
      have ih := ih h
      cases o <;> simp only [genStep, Option.some.injEq, Prod.mk.injEq] at hs
      case input =>
        split at hs
        · cases hs
        · rename_i hl
          cases hf : fs v with
          | none => rw [hf] at hs; cases hs
          | some c =>
            rw [hf] at hs
            simp only [Option.map_some, Option.some.injEq, Prod.mk.injEq] at hs
            obtain ⟨rfl, rfl⟩ := hs
            have ih := ih (by simp; omega)
            simp only [List.length_append, List.length_cons, List.length_nil] at ih
            refine ⟨ih.1, by rw [ih.2.1]; simp [optVals]; omega, by simpa [optGiven] using ih.2.2.1, by simpa [optVals] using ih.2.2.2.1,
              by simpa [optVals] using ih.2.2.2.2.1, ?_⟩
            intro i hi hn
            simp only [optVals, List.filterMap_cons, ↓reduceIte, List.mem_cons] at hi
            rcases hi with rfl | hi
            · rw [hf] at hn; cases hn
            · simpa [optVals] using ih.2.2.2.2.2 i hi hn
      case output =>
        split at hs
        · rename_i hc
          simp only [Option.some.injEq, Prod.mk.injEq] at hs
          obtain ⟨rfl, rfl⟩ := hs
          have ih := ih h2
          refine ⟨ih.1, by rw [ih.2.1]; simp [optVals], by simpa [optGiven] using ih.2.2.1, ?_, ?_, ?_⟩
          · rw [ih.2.2.2.1]
            simp only [optVals, List.filterMap_cons, ↓reduceIte, List.getLast?_cons]
            cases (List.filterMap (fun p : GenOpt × List Byte => if p.1 = GenOpt.output then some p.2 else none) os).getLast? <;> simp
          · intro w hw
            simp only [optVals, List.filterMap_cons, ↓reduceIte, List.mem_cons] at hw
            rcases hw with rfl | hw
            · exact hc
            · exact ih.2.2.2.2.1 w hw
          · intro i hi hn
            simp only [optVals, List.filterMap_cons, ↓reduceIte, List.mem_cons]
            by_cases e : i = v
            · exact Or.inl e
            · refine Or.inr (ih.2.2.2.2.2 i (by simpa [optVals] using hi) ?_)
              show (if i = v then some [] else fs i) = none
              rw [if_neg e, hn]
        · cases hs
      all_goals
        obtain ⟨rfl, rfl⟩ := hs
        first
          | (have ih := ih h2; simpa [optVals, optGiven] using ih)
          | (have ih := ih (by split; exact h2; split <;> exact h2)
             have e1 : ∀ (b c : Prop) [Decidable b] [Decidable c] (x y : GenSet), x.inputs = s.inputs → y.inputs = s.inputs →
               (if b then x else if c then y else s).inputs = s.inputs := by intros; split; assumption; split <;> first | assumption | rfl
             have e2 : ∀ (b c : Prop) [Decidable b] [Decidable c] (x y : GenSet), x.filter = s.filter → y.filter = s.filter →
               (if b then x else if c then y else s).filter = s.filter := by intros; split; assumption; split <;> first | assumption | rfl
             have e3 : ∀ (b c : Prop) [Decidable b] [Decidable c] (x y : GenSet), x.out = s.out → y.out = s.out →
               (if b then x else if c then y else s).out = s.out := by intros; split; assumption; split <;> first | assumption | rfl
             rw [e1 _ _ _ _ (by rfl) (by rfl), e2 _ _ _ _ (by rfl) (by rfl), e3 _ _ _ _ (by rfl) (by rfl)] at ih
             simpa [optVals, optGiven] using ih)

/-- The settings `s` with what the options add. -/
def addAsked (s : GenSet) (os : List (GenOpt × List Byte)) (texts : List (List Byte)) : GenSet where
  filter := s.filter || optGiven .filter os
  ehFrame := s.ehFrame || optGiven .ehFrame os
  exceptTable := s.exceptTable || optGiven .exceptTable os
  cfi := s.cfi || optGiven .cfi os
  newlines := s.newlines || optGiven .newlines os
  gotpcrel := s.gotpcrel || optGiven .gotpcrel os
  global := s.global || optGiven .global os
  test := s.test || optGiven .test os
  rhel5 := (lastOf .os (lit "rhel5") (lit "rhel6") os).getD s.rhel5
  bits32 := (lastOf .arch (lit "i686") (lit "x86_64") os).getD s.bits32
  ignore := s.ignore ++ optVals .ignore os
  unlink := s.unlink ++ optVals .unlink os
  adapt := s.adapt ++ optVals .adapt os
  inputs := s.inputs ++ texts
  out := (optVals .output os).getLast?.or s.out

theorem lastOf_cons_ne {o o' : GenOpt} (h : o' ≠ o) (yes no v : List Byte) (os : List (GenOpt × List Byte)) :
    lastOf o yes no ((o', v) :: os) = lastOf o yes no os := by
  simp [lastOf, optVals, h]

theorem lastOf_cons (o : GenOpt) (yes no v : List Byte) (os : List (GenOpt × List Byte)) (b : Bool) :
    (lastOf o yes no ((o, v) :: os)).getD b = (lastOf o yes no os).getD (if v = yes then true else if v = no then false else b) := by
  unfold lastOf
  simp only [optVals, List.filterMap_cons, ↓reduceIte]
  by_cases h1 : v = yes
  · rw [if_pos h1, if_pos h1, List.getLast?_cons]; rfl
  · rw [if_neg h1, if_neg h1]
    by_cases h2 : v = no
    · rw [if_pos h2, if_pos h2, List.getLast?_cons]; rfl
    · rw [if_neg h2, if_neg h2]

/-- The files after the outputs have been created. -/
def emptied (outs : List (List Byte)) (fs : GenFs) : GenFs := fun x => if x ∈ outs then some [] else fs x

theorem genLoop_ok (create : List Byte → Bool) {os : List (GenOpt × List Byte)} {fs : GenFs} {s : GenSet} {texts : List (List Byte)}
    (hc : ∀ v ∈ optVals .output os, create v = true) (hd : ∀ i ∈ optVals .input os, i ∉ optVals .output os)
    (hr : (optVals .input os).map fs = texts.map some) (hl : s.inputs.length + texts.length ≤ 2) :
    genLoop create (evsOf os) fs s = (emptied (optVals .output os) fs, .inr (addAsked s os texts)) := by
  induction os generalizing fs s texts with
  | nil =>
    have : texts = [] := by simpa [optVals] using hr.symm
    subst this
    have : emptied (optVals .output []) fs = fs := by funext x; simp [emptied, optVals]
    rw [this]
    simp [evsOf, genLoop, optVals, addAsked, optGiven, lastOf]
  | cons p os ih =>
    obtain ⟨o, v⟩ := p
    rw [evsOf, List.map_cons, genLoop]
    have ih := fun f t (x : List (List Byte)) (a : (∀ w ∈ optVals .output os, create w = true)) (b : ∀ i ∈ optVals .input os, i ∉ optVals .output os)
      => @ih f t x a b
    cases o
    case input =>
      cases texts with
      | nil => simp [optVals] at hr
      | cons c texts =>
        simp only [optVals, List.filterMap_cons, ↓reduceIte, List.map_cons, List.cons.injEq] at hr
        simp only [List.length_cons] at hl
        have : genStep create fs s .input v = some (fs, { s with inputs := s.inputs ++ [c] }) := by
          simp only [genStep]
          rw [if_neg (by omega), hr.1]
          rfl
        rw [this]
        show genLoop create (evsOf os) fs _ = _
        rw [ih fs _ texts (by simpa [optVals] using hc) (fun i hi => by
          have := hd i (by simp only [optVals, List.filterMap_cons, ↓reduceIte, List.mem_cons]; exact Or.inr hi)
          simpa [optVals] using this) hr.2 (by simp; omega)]
        simp [addAsked, optVals, optGiven, lastOf]
    case output =>
      have : genStep create fs s .output v = some (fun x => if x = v then some [] else fs x, { s with out := some v }) := by
        simp only [genStep]
        rw [if_pos (hc v (by simp [optVals]))]
      rw [this]
      show genLoop create (evsOf os) _ _ = _
      have hd' : ∀ i ∈ optVals .input os, i ≠ v ∧ i ∉ optVals .output os := fun i hi => by
        have := hd i (by simpa [optVals] using hi)
        simpa [optVals] using this
      rw [ih _ _ texts (fun w hw => hc w (by simp only [optVals, List.filterMap_cons, ↓reduceIte, List.mem_cons]; exact Or.inr hw))
        (fun i hi => (hd' i hi).2) ?_ (by exact hl)]
      · congr 1
        · funext x
          simp only [emptied, optVals, List.filterMap_cons, ↓reduceIte, List.mem_cons]
          by_cases e : x = v <;> simp [e]
        · simp only [addAsked, optVals, optGiven, lastOf, List.filterMap_cons, ↓reduceIte, List.getLast?_cons]
          cases (List.filterMap (fun p : GenOpt × List Byte => if p.1 = GenOpt.output then some p.2 else none) os).getLast? <;> simp
      · rw [show texts.map some = (optVals .input os).map fs by rw [← hr]; simp [optVals]]
        exact List.map_congr_left fun i hi => if_neg (hd' i hi).1
    case os =>
      show genLoop create (evsOf os) fs _ = _
      rw [ih fs _ texts (by simpa [optVals] using hc) (by simpa [optVals] using hd) (by simpa [optVals] using hr) (by split; exact hl; split <;> exact hl)]
      simp only [addAsked, lastOf_cons, ← show lit "rhel5" = [0x72, 0x68, 0x65, 0x6c, 0x35] by decide +kernel, ← show lit "rhel6" = [0x72, 0x68, 0x65, 0x6c, 0x36] by decide +kernel]
      rw [lastOf_cons_ne (o := .arch) (by decide)]
      by_cases h1 : v = lit "rhel5"
      · simp only [if_pos h1]
        simp [optVals, optGiven]
      · by_cases h2 : v = lit "rhel6"
        · simp only [if_neg h1, if_pos h2]
          simp [optVals, optGiven]
        · simp only [if_neg h1, if_neg h2]
          simp [optVals, optGiven]
    case arch =>
      show genLoop create (evsOf os) fs _ = _
      rw [ih fs _ texts (by simpa [optVals] using hc) (by simpa [optVals] using hd) (by simpa [optVals] using hr) (by split; exact hl; split <;> exact hl)]
      simp only [addAsked, lastOf_cons, ← show lit "i686" = [0x69, 0x36, 0x38, 0x36] by decide +kernel, ← show lit "x86_64" = [0x78, 0x38, 0x36, 0x5f, 0x36, 0x34] by decide +kernel]
      rw [lastOf_cons_ne (o := .os) (by decide)]
      by_cases h1 : v = lit "i686"
      · simp only [if_pos h1]
        simp [optVals, optGiven]
      · by_cases h2 : v = lit "x86_64"
        · simp only [if_neg h1, if_pos h2]
          simp [optVals, optGiven]
        · simp only [if_neg h1, if_neg h2]
          simp [optVals, optGiven]
    all_goals
      show genLoop create (evsOf os) fs _ = _
      rw [ih fs _ texts (by simpa [optVals] using hc) (by simpa [optVals] using hd) (by simpa [optVals] using hr) (by exact hl)]
      simp [addAsked, optVals, optGiven, lastOf]

/-! ### C103 -/

theorem addAsked_empty (os : List (GenOpt × List Byte)) (texts : List (List Byte)) : addAsked {} os texts = askedFor os texts := by
  simp [addAsked, askedFor]

theorem words_nil {ps : List GenPiece} {t : GenTail} (h1 : ∀ p ∈ ps, p.words = []) (h2 : t.words = []) : ps.flatMap GenPiece.words ++ t.words = [] := by
  simp only [List.append_eq_nil_iff, List.flatMap_eq_nil_iff]
  exact ⟨h1, h2⟩

/-- Every command line of options in any order and spelling, with at most two inputs that can be read, none of them given as output too, and
at least one output, all of which can be created: with `--dbg-filter` and an input, the first input is filtered into the last output;
without it and with two inputs, the patch is generated from them, the first given first, into the last output.  Exactly the given settings
are in force, the status is 0, and until then no file is touched but the outputs, which are emptied.  Missing: the same file as input and
output (C103_violated_same_file). -/
theorem C103_runs_partial (create : List Byte → Bool) (fs : GenFs) {ps : List GenPiece} {t : GenTail} {texts : List (List Byte)} {out : List Byte}
    (hv : ∀ p ∈ ps, p.Valid) (hk : ∀ p ∈ ps, p.known = true) (ht : t.known = true) (hw : ∀ p ∈ ps, p.words = []) (htw : t.words = [])
    (hc : ∀ v ∈ optVals .output (optsOf ps), create v = true) (hd : ∀ i ∈ optVals .input (optsOf ps), i ∉ optVals .output (optsOf ps))
    (hr : (optVals .input (optsOf ps)).map fs = texts.map some) (ho : (optVals .output (optsOf ps)).getLast? = some out) :
    (∀ text more, optGiven .filter (optsOf ps) = true → texts = text :: more → more.length ≤ 1 →
        genMain create fs (genArgs ps t) = (0, fun x => if x ∈ optVals .output (optsOf ps) then some [] else fs x,
          some (.filtered text out (askedFor (optsOf ps) texts))))
      ∧ (∀ text0 text1, optGiven .filter (optsOf ps) = false → texts = [text0, text1] →
        genMain create fs (genArgs ps t) = (0, fun x => if x ∈ optVals .output (optsOf ps) then some [] else fs x,
          some (.generated text0 text1 out (askedFor (optsOf ps) texts)))) := by
  have key : texts.length ≤ 2 → genLoop create (genGetopts (genArgs ps t)).1 fs {} =
      (emptied (optVals .output (optsOf ps)) fs, .inr (askedFor (optsOf ps) texts)) := fun hl => by
    rw [genGetopts_args hv hk ht]
    show genLoop create (evsOf (optsOf ps)) fs {} = _
    rw [genLoop_ok create hc hd hr (by simpa using hl), addAsked_empty]
  have hwd : (genGetopts (genArgs ps t)).2 = [] := by rw [genGetopts_args hv hk ht]; exact words_nil hw htw
  have ho' : (askedFor (optsOf ps) texts).out = some out := ho
  refine ⟨fun text more hf htx hm => ?_, fun text0 text1 hf htx => ?_⟩
  · have hf' : (askedFor (optsOf ps) texts).filter = true := hf
    have hi : (askedFor (optsOf ps) texts).inputs = text :: more := htx
    unfold genMain
    rw [key (by rw [htx]; simp; omega)]
    simp only [ho', hwd, hf', hi, ne_eq, not_true_eq_false, ↓reduceIte]
    rfl
  · have hf' : (askedFor (optsOf ps) texts).filter = false := hf
    have hi : (askedFor (optsOf ps) texts).inputs = [text0, text1] := htx
    unfold genMain
    rw [key (by rw [htx]; simp)]
    simp only [ho', hwd, hf', hi, ne_eq, not_true_eq_false, ↓reduceIte, Bool.false_eq_true]
    rfl

/-- Refused with a status other than 0, and nothing is generated: another word, an option that is not understood, one without its value, no
output, too few inputs or more than two, an input that cannot be read (and is not created as an output), an output that cannot be created. -/
theorem C103_refused (create : List Byte → Bool) (fs : GenFs) {ps : List GenPiece} {t : GenTail} (hv : ∀ p ∈ ps, p.Valid) (htv : t.Valid)
    (h : (∃ p ∈ ps, p.known = false ∨ p.words ≠ []) ∨ t.known = false ∨ t.words ≠ []
      ∨ optVals .output (optsOf ps) = []
      ∨ (optVals .input (optsOf ps)).length > 2
      ∨ (optVals .input (optsOf ps)).length < (if optGiven .filter (optsOf ps) then 1 else 2)
      ∨ (∃ i ∈ optVals .input (optsOf ps), fs i = none ∧ i ∉ optVals .output (optsOf ps))
      ∨ (∃ v ∈ optVals .output (optsOf ps), create v = false)) :
    (genMain create fs (genArgs ps t)).1 ≠ 0 ∧ (genMain create fs (genArgs ps t)).2.2 = none := by
  by_cases hb : (∃ p ∈ ps, p.known = false) ∨ t.known = false
  · obtain ⟨fs', st, h1, h2⟩ := genLoop_bad create (genGetopts_bad hv htv hb) fs {}
    unfold genMain
    rw [h1]
    exact ⟨h2, rfl⟩
  · rw [not_or] at hb
    have hk : ∀ p ∈ ps, p.known = true := fun p hp => by
      cases e : p.known with
      | true => rfl
      | false => exact absurd ⟨p, hp, e⟩ hb.1
    have ht : t.known = true := by simpa using hb.2
    unfold genMain
    rw [genGetopts_args hv hk ht]
    show (match genLoop create (evsOf (optsOf ps)) fs {} with | (fs', .inl st) => _ | (fs', .inr s) => _ : Nat × GenFs × Option GenAct).1 ≠ 0 ∧
      (match genLoop create (evsOf (optsOf ps)) fs {} with | (fs', .inl st) => _ | (fs', .inr s) => _ : Nat × GenFs × Option GenAct).2.2 = none
    rcases hl : genLoop create (evsOf (optsOf ps)) fs {} with ⟨fs', st | s⟩
    · exact ⟨genLoop_inl create hl, rfl⟩
    · obtain ⟨a1, a2, a3, a4, a5, a6⟩ := genLoop_inr create hl (by simp)
      dsimp only
      cases hs : s.out with
      | none => exact ⟨by simp, rfl⟩
      | some out =>
        dsimp only
        by_cases hw : ps.flatMap GenPiece.words ++ t.words ≠ []
        · rw [if_pos hw]; exact ⟨by simp, rfl⟩
        · rw [if_neg hw]
          have hw : ps.flatMap GenPiece.words ++ t.words = [] := by simpa using hw
          rw [List.append_eq_nil_iff, List.flatMap_eq_nil_iff] at hw
          simp only [Bool.false_or, List.length_nil, Nat.zero_add] at a2 a3
          rw [a2] at a1
          rcases h with ⟨p, hp, h | h⟩ | h | h | h | h | h | ⟨i, hi, h, h'⟩ | ⟨v, hv', h⟩
          · rw [hk p hp] at h; cases h
          · exact absurd (hw.1 p hp) h
          · rw [ht] at h; cases h
          · exact absurd hw.2 h
          · rw [h] at a4; simp [hs] at a4
          · omega
          · rw [← a3, ← a2] at h
            cases hf : s.filter with
            | true =>
              rw [hf] at h
              have : s.inputs = [] := List.length_eq_zero_iff.mp (by simpa using h)
              rw [if_pos rfl, this]
              exact ⟨by simp, rfl⟩
            | false =>
              rw [hf] at h
              rw [if_neg (by decide)]
              rcases hi : s.inputs with _ | ⟨x, _ | ⟨y, l⟩⟩
              · exact ⟨by simp, rfl⟩
              · exact ⟨by simp, rfl⟩
              · rw [hi] at h; simp at h; omega
          · exact absurd (a6 i hi h) h'
          · rw [a5 v hv'] at h; cases h

theorem genLoop_emptied (create : List Byte → Bool) {evs : List GenEv} {fs : GenFs} {s : GenSet} {f : List Byte} (h : fs f = some []) :
    (genLoop create evs fs s).1 f = some [] := by
  induction evs generalizing fs s with
  | nil => exact h
  | cons e evs ih =>
    cases e with
    | bad => exact h
    | opt o v =>
      rw [genLoop]
      cases hs : genStep create fs s o v with
      | none => exact h
      | some r =>
        obtain ⟨f', t⟩ := r
        refine ih ?_
        cases o <;> simp only [genStep, Option.some.injEq, Prod.mk.injEq] at hs
        case input =>
          split at hs
          · cases hs
          · cases hf : fs v with
            | none => rw [hf] at hs; cases hs
            | some c => rw [hf] at hs; simp at hs; rw [← hs.1]; exact h
        case output =>
          split at hs
          · simp only [Option.some.injEq, Prod.mk.injEq] at hs
            rw [← hs.1]
            show (if f = v then some [] else fs f) = some []
            split <;> first | rfl | exact h
          · cases hs
        all_goals rw [← hs.1]; exact h

theorem genMain_fs (create : List Byte → Bool) (fs : GenFs) (args : List (List Byte)) :
    (genMain create fs args).2.1 = (genLoop create (genGetopts args).1 fs {}).1 := by
  unfold genMain
  rcases genLoop create (genGetopts args).1 fs {} with ⟨fs', st | s⟩
  · rfl
  · dsimp only
    repeat' split
    all_goals rfl

/-- The options are handled as they come: a command line that is refused may have emptied the file behind `-o`. -/
theorem C103_violated_refused (create : List Byte → Bool) (fs : GenFs) (f : List Byte) (hc : create f = true) {bad : GenPiece} (hb : bad.Valid)
    (hk : bad.known = false) :
    (genMain create fs (genArgs [.sep 0 .output 0x6f#8 f, bad] .nothing)).1 ≠ 0
      ∧ (genMain create fs (genArgs [.sep 0 .output 0x6f#8 f, bad] .nothing)).2.1 f = some [] := by
  have hv : GenPiece.Valid (.sep 0 .output 0x6f#8 f) := ⟨rfl, by simp [GenOpt.valued]⟩
  refine ⟨(C103_refused create fs (t := .nothing) (ps := [.sep 0 .output 0x6f#8 f, bad]) (by simp [hv, hb]) trivial
    (Or.inl ⟨bad, by simp, Or.inl hk⟩)).1, ?_⟩
  rw [genMain_fs, show genArgs [.sep 0 .output 0x6f#8 f, bad] .nothing = GenPiece.render (.sep 0 .output 0x6f#8 f) ++ genArgs [bad] .nothing by
    simp [genArgs], genGetopts_piece hv rfl]
  simp only [GenPiece.opts, evsOf, List.replicate_zero, List.nil_append, List.map_cons, List.map_nil, List.cons_append, genLoop, genStep, hc, ↓reduceIte]
  exact genLoop_emptied create (by simp)

/-- An input that is given as output before is read after it has been emptied, and the work is done with an empty text and status 0. -/
theorem C103_violated_same_file (create : List Byte → Bool) (fs : GenFs) (f : List Byte) (hc : create f = true) :
    genMain create fs (genArgs [.sep 0 .output 0x6f#8 f, .sep 1 .input 0x69#8 f] .nothing) =
      (0, fun x => if x = f then some [] else fs x, some (.filtered [] f (askedFor [(.output, f), (.filter, []), (.input, f)] [[]]))) := by
  have hv : ∀ p ∈ [GenPiece.sep 0 .output 0x6f#8 f, .sep 1 .input 0x69#8 f], p.Valid := by
    simp [GenPiece.Valid, GenOpt.letter, GenOpt.valued]
  unfold genMain
  rw [genGetopts_args hv (by simp [GenPiece.known]) rfl]
  simp [GenPiece.opts, evsOf, genLoop, genStep, hc, GenPiece.words, GenTail.words, askedFor, optVals, optGiven, lastOf]

/-! ### The hypotheses are met -/

/-- `-fi a --ou out --arch=i686 -Orhel5 -i b`, the second input too many for nothing: the first is filtered. -/
example (fs : GenFs) (h1 : fs [0x61#8] = some (lit "one")) (h2 : fs [0x62#8] = some (lit "two")) :
    (genMain (fun _ => true) fs [lit "-fi", [0x61#8], lit "--ou", [0x63#8], lit "--arch=i686", lit "-Orhel5", lit "-i", [0x62#8]]).2.2 =
      some (.filtered (lit "one") [0x63#8] { filter := true, rhel5 := true, bits32 := true, inputs := [lit "one", lit "two"], out := some [0x63#8] }) := by
  have e : [lit "-fi", [0x61#8], lit "--ou", [0x63#8], lit "--arch=i686", lit "-Orhel5", lit "-i", [0x62#8]] =
      genArgs [.sep 1 .input 0x69#8 [0x61#8], .longSep .output (lit "ou") [0x63#8], .longEq .arch (lit "arch") (lit "i686"),
        .glued 0 .os 0x4f#8 (lit "rhel5"), .sep 0 .input 0x69#8 [0x62#8]] .nothing := by decide +kernel
  have hn : OptName .output (lit "ou") := Or.inr ⟨by decide +kernel, fun o' h => by
    have : ∀ o ∈ allGenOpts, lit "ou" <+: o.name → o = .output := by decide +kernel
    exact this o' (mem_allGenOpts _) h⟩
  rw [e, (C103_runs_partial (fun _ => true) fs (texts := [lit "one", lit "two"]) (out := [0x63#8]) ?_ (by simp [GenPiece.known]) rfl
    (by simp [GenPiece.words]) rfl (by simp) (by decide +kernel) (by simp [optsOf, GenPiece.opts, optVals, h1, h2]) (by decide +kernel)).1
    (lit "one") [lit "two"] (by decide +kernel) rfl (by decide)]
  · dsimp only
    decide +kernel
  · simp only [List.mem_cons, List.not_mem_nil, or_false, forall_eq_or_imp, forall_eq, GenPiece.Valid]
    refine ⟨⟨rfl, by simp [GenOpt.valued]⟩, ⟨hn, by decide +kernel, by simp [GenOpt.valued]⟩, ⟨Or.inl rfl, by decide +kernel, by simp [GenOpt.valued]⟩,
      ⟨rfl, by simp [GenOpt.valued], by decide +kernel⟩, rfl, by simp [GenOpt.valued]⟩

/-- `--output` is one of the names that are not understood. -/
example : GenPiece.Valid (.badLong (lit "output")) := by
  refine ⟨fun o h => ?_, by decide +kernel, by decide +kernel⟩
  have : ∀ o ∈ allGenOpts, ¬ lit "output" <+: o.name := by decide +kernel
  exact this o (mem_allGenOpts _) (names_prefix h)

end Verif
