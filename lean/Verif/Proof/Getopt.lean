import Verif.Model.Getopt
import Verif.Spec.Getopt
/-
`getopt` on rendered command lines.
-/
namespace Verif

/-- the third argument of `getopt` says what the syntax says -/
def Agrees (spec : Byte → Option OptKind) (S : OptSyntax) : Prop :=
  ∀ c, spec c = if c ∈ S.flags then some .flag else if c ∈ S.vals then some .value else if c ∈ S.maybes then some .maybe else none

variable {spec : Byte → Option OptKind} {S : OptSyntax}

theorem Agrees.flag (hA : Agrees spec S) {c : Byte} (h : c ∈ S.flags) : spec c = some .flag := by rw [hA, if_pos h]

theorem Agrees.value (hA : Agrees spec S) (hS : S.Ok) {c : Byte} (h : c ∈ S.vals) : spec c = some .value := by
  rw [hA, if_neg fun h' => hS.fv c h' h, if_pos h]

theorem Agrees.maybe (hA : Agrees spec S) (hS : S.Ok) {c : Byte} (h : c ∈ S.maybes) : spec c = some .maybe := by
  rw [hA, if_neg fun h' => hS.fm c h' h, if_neg fun h' => hS.vm c h' h, if_pos h]

theorem Agrees.none (hA : Agrees spec S) {c : Byte} (h : c ∉ S.flags ∧ c ∉ S.vals ∧ c ∉ S.maybes) : spec c = none := by
  rw [hA, if_neg h.1, if_neg h.2.1, if_neg h.2.2]

/-- the events of options without a value -/
def flagEvs (fs : List Byte) : List OptEv := fs.map fun f => .opt f []

/-- the events of a piece -/
def pieceEvs : ArgPiece → List OptEv
  | .sep fs c v => flagEvs fs ++ [.opt c v]
  | .glued fs c v => flagEvs fs ++ [.opt c v]
  | .maybe fs c v => flagEvs fs ++ [.opt c v]
  | .flags fs => flagEvs fs
  | .unknown _ _ _ => []
  | .word _ => []

theorem optCluster_flags (hA : Agrees spec S) {fs : List Byte} (hf : ∀ f ∈ fs, f ∈ S.flags) (cs : List Byte) :
    optCluster spec (fs ++ cs) = (flagEvs fs ++ (optCluster spec cs).1, (optCluster spec cs).2) := by
  induction fs with
  | nil => rfl
  | cons f fs ih =>
    show optCluster spec (f :: (fs ++ cs)) = _
    rw [optCluster, hA.flag (hf f (by simp))]
    simp only [ih fun x hx => hf x (by simp [hx]), flagEvs, List.map_cons, List.cons_append]

theorem getopts_cons (spec : Byte → Option OptKind) (a : List Byte) (as : List (List Byte)) : getopts spec (a :: as) =
    if a = [0x2d#8, 0x2d#8] then ([], as)
    else if a.head? = some 0x2d#8 ∧ a.length > 1 then
      match optCluster spec a.tail, as with
      | (evs, none), as => (evs ++ (getopts spec as).1, (getopts spec as).2)
      | (evs, some _), [] => (evs ++ [.bad], [])
      | (evs, some c), b :: bs => (evs ++ .opt c b :: (getopts spec bs).1, (getopts spec bs).2)
    else ((getopts spec as).1, a :: (getopts spec as).2) := by
  rw [getopts.eq_def]
  rfl

theorem getopts_opt {as : List (List Byte)} {t : List Byte} (ht : t ≠ []) (h2 : t ≠ [0x2d#8]) :
    getopts spec ((0x2d#8 :: t) :: as) =
      match optCluster spec t, as with
      | (evs, none), as => (evs ++ (getopts spec as).1, (getopts spec as).2)
      | (evs, some _), [] => (evs ++ [.bad], [])
      | (evs, some c), b :: bs => (evs ++ .opt c b :: (getopts spec bs).1, (getopts spec bs).2) := by
  rw [getopts_cons, if_neg (by simpa using h2), if_pos]
  · rfl
  · refine ⟨rfl, ?_⟩
    cases t with
    | nil => exact absurd rfl ht
    | cons => simp

theorem not_dash {fs : List Byte} {c : Byte} {r : List Byte} (hS : S.Ok) (hf : ∀ f ∈ fs, f ∈ S.flags)
    (hc : fs = [] → c = 0x2d#8 → r ≠ []) : fs ++ c :: r ≠ [0x2d#8] := by
  intro e
  cases fs with
  | nil =>
    simp at e
    exact hc rfl e.1 e.2
  | cons f fs => simp at e

theorem getopts_piece (hA : Agrees spec S) (hS : S.Ok) {p : ArgPiece} (hv : p.Valid S) (hu : ∀ n c r, p ≠ .unknown n c r) (rest : List (List Byte)) :
    getopts spec (p.render ++ rest) =
      (pieceEvs p ++ (getopts spec rest).1, (match p with | .word w => [w] | _ => []) ++ (getopts spec rest).2) := by
  cases p with
  | sep fs c v =>
    show getopts spec (_ :: v :: rest) = _
    rw [getopts_opt (by simp) (not_dash hS hv.1 fun _ e => absurd (e ▸ hv.2) hS.dash.2.1), optCluster_flags hA hv.1, optCluster,
      hA.value hS hv.2]
    simp [pieceEvs]
  | glued fs c v =>
    show getopts spec (_ :: rest) = _
    rw [getopts_opt (by simp) (not_dash hS hv.1 fun _ e => absurd (e ▸ hv.2.1) hS.dash.2.1), optCluster_flags hA hv.1, optCluster,
      hA.value hS hv.2.1]
    simp [pieceEvs, hv.2.2]
  | maybe fs c v =>
    show getopts spec (_ :: rest) = _
    rw [getopts_opt (by simp) (not_dash hS hv.1 fun _ e => absurd (e ▸ hv.2) hS.dash.2.2), optCluster_flags hA hv.1, optCluster,
      hA.maybe hS hv.2]
    simp [pieceEvs]
  | flags fs =>
    show getopts spec (_ :: rest) = _
    have := optCluster_flags hA hv.1 []
    rw [List.append_nil] at this
    rw [getopts_opt hv.2 ?_, this, optCluster]
    · simp [pieceEvs]
    · rintro rfl
      exact hS.dash.1 (hv.1 _ (by simp))
  | unknown n c r => exact absurd rfl (hu n c r)
  | word w =>
    show getopts spec (w :: rest) = _
    rw [getopts_cons, if_neg, if_neg]
    · simp [pieceEvs]
    · rintro ⟨h1, h2⟩
      rcases hv with h | h
      · exact h h1
      · subst h; simp at h2
    · rintro rfl
      rcases hv with h | h
      · exact h rfl
      · cases h

theorem getopts_unknown (hA : Agrees spec S) (hS : S.Ok) {fs : List Byte} {c : Byte} {r : List Byte} (hv : (ArgPiece.unknown fs c r).Valid S)
    (rest : List (List Byte)) : OptEv.bad ∈ (getopts spec ((ArgPiece.unknown fs c r).render ++ rest)).1 := by
  show OptEv.bad ∈ (getopts spec (_ :: rest)).1
  rw [getopts_opt (by simp) (not_dash hS hv.1 fun h1 h2 h3 => hv.2.2 ⟨h1, h2, h3⟩), optCluster_flags hA hv.1, optCluster, hA.none hv.2.1]
  dsimp only
  cases (optCluster spec r).2 with
  | none => simp
  | some d => cases rest <;> simp

theorem getopts_cmdLine (hA : Agrees spec S) (hS : S.Ok) {ps : List ArgPiece} {tail : CmdTail} (hv : ∀ p ∈ ps, p.Valid S) (hk : Known ps tail) :
    getopts spec (cmdLine ps tail) = (ps.flatMap pieceEvs, givenWords ps tail) := by
  obtain ⟨hu, ht⟩ := hk
  induction ps with
  | nil =>
    cases tail with
    | nothing => simp [cmdLine, getopts, givenWords]
    | words ws => simp [cmdLine, getopts_cons, givenWords]
    | missing fs c => exact absurd rfl (ht fs c)
  | cons p ps ih =>
    have e : cmdLine (p :: ps) tail = p.render ++ cmdLine ps tail := by simp [cmdLine]
    rw [e, getopts_piece hA hS (hv p (by simp)) (hu p (by simp)), ih (fun q hq => hv q (by simp [hq])) fun q hq => hu q (by simp [hq])]
    cases p <;> simp [givenWords]

theorem getopts_bad (hA : Agrees spec S) (hS : S.Ok) {ps : List ArgPiece} {tail : CmdTail} (hv : ∀ p ∈ ps, p.Valid S) (ht : tail.Valid S)
    (hk : ¬ Known ps tail) : OptEv.bad ∈ (getopts spec (cmdLine ps tail)).1 := by
  induction ps with
  | nil =>
    cases tail with
    | nothing => exact absurd ⟨by simp, by simp⟩ hk
    | words ws => exact absurd ⟨by simp, by simp⟩ hk
    | missing fs c =>
      show OptEv.bad ∈ (getopts spec [0x2d#8 :: (fs ++ [c])]).1
      rw [getopts_opt (by simp) (not_dash hS ht.1 fun _ e => absurd (e ▸ ht.2) hS.dash.2.1), optCluster_flags hA ht.1, optCluster, hA.value hS ht.2]
      simp
  | cons p ps ih =>
    have e : cmdLine (p :: ps) tail = p.render ++ cmdLine ps tail := by simp [cmdLine]
    by_cases hp : ∃ n c r, p = .unknown n c r
    · obtain ⟨n, c, r, rfl⟩ := hp
      rw [e]
      exact getopts_unknown hA hS (hv (.unknown n c r) (by simp)) _
    · rw [e, getopts_piece hA hS (hv p (by simp)) fun n c r h => hp ⟨n, c, r, h⟩]
      refine List.mem_append_right _ (ih (fun q hq => hv q (by simp [hq])) fun hk' => hk ⟨?_, hk'.2⟩)
      intro q hq n c r hqe
      rcases List.mem_cons.1 hq with rfl | hq
      · exact hp ⟨n, c, r, hqe⟩
      · exact hk'.1 q hq n c r hqe

/-- the values of an option among the events -/
def evVals (c : Byte) (evs : List OptEv) : List (List Byte) :=
  evs.filterMap fun e => match e with
    | .opt d v => if d = c then some v else none
    | .bad => none

theorem evVals_append (c : Byte) (a b : List OptEv) : evVals c (a ++ b) = evVals c a ++ evVals c b := by
  simp [evVals]

theorem evVals_flags {c : Byte} (hc : c ∉ S.flags) {fs : List Byte} (hf : ∀ f ∈ fs, f ∈ S.flags) : evVals c (flagEvs fs) = [] := by
  unfold evVals flagEvs
  rw [List.filterMap_eq_nil_iff]
  intro e he
  obtain ⟨f, hfm, rfl⟩ := List.mem_map.1 he
  have : f ≠ c := fun h => hc (h ▸ hf f hfm)
  simp [this]

theorem evVals_pieces {c : Byte} (hc : c ∉ S.flags) {ps : List ArgPiece} (hv : ∀ p ∈ ps, p.Valid S) :
    evVals c (ps.flatMap pieceEvs) = givenVals c ps := by
  induction ps with
  | nil => rfl
  | cons p ps ih =>
    have hp := hv p (by simp)
    rw [List.flatMap_cons, evVals_append, ih fun q hq => hv q (by simp [hq])]
    cases p with
    | sep fs d v =>
      simp only [pieceEvs, evVals_append, evVals_flags hc hp.1, List.nil_append]
      by_cases h : d = c <;> simp [evVals, givenVals, h]
    | glued fs d v =>
      simp only [pieceEvs, evVals_append, evVals_flags hc hp.1, List.nil_append]
      by_cases h : d = c <;> simp [evVals, givenVals, h]
    | maybe fs d v =>
      simp only [pieceEvs, evVals_append, evVals_flags hc hp.1, List.nil_append]
      by_cases h : d = c <;> simp [evVals, givenVals, h]
    | flags fs => simp only [pieceEvs, evVals_flags hc hp.1]; simp [givenVals]
    | unknown n d r => simp [pieceEvs, evVals, givenVals]
    | word w => simp [pieceEvs, evVals, givenVals]

/-- which options the events of known pieces are -/
theorem pieceEvs_opts {ps : List ArgPiece} (hv : ∀ p ∈ ps, p.Valid S) {e : OptEv} (he : e ∈ ps.flatMap pieceEvs) :
    ∃ c v, e = .opt c v ∧ (c ∈ S.flags ∨ (v ∈ givenVals c ps ∧ (c ∈ S.vals ∨ c ∈ S.maybes))) := by
  obtain ⟨p, hp, hep⟩ := List.mem_flatMap.1 he
  have hpv := hv p hp
  have hfl : ∀ fs, (∀ f ∈ fs, f ∈ S.flags) → e ∈ flagEvs fs → ∃ c v, e = .opt c v ∧ (c ∈ S.flags ∨ (v ∈ givenVals c ps ∧ (c ∈ S.vals ∨ c ∈ S.maybes))) := by
    intro fs hf h
    obtain ⟨f, hfm, rfl⟩ := List.mem_map.1 h
    exact ⟨f, [], rfl, Or.inl (hf f hfm)⟩
  cases p with
  | sep fs c v =>
    rcases List.mem_append.1 hep with h | h
    · exact hfl fs hpv.1 h
    · exact ⟨c, v, by simpa using h, Or.inr ⟨List.mem_filterMap.2 ⟨_, hp, by simp⟩, Or.inl hpv.2⟩⟩
  | glued fs c v =>
    rcases List.mem_append.1 hep with h | h
    · exact hfl fs hpv.1 h
    · exact ⟨c, v, by simpa using h, Or.inr ⟨List.mem_filterMap.2 ⟨_, hp, by simp⟩, Or.inl hpv.2.1⟩⟩
  | maybe fs c v =>
    rcases List.mem_append.1 hep with h | h
    · exact hfl fs hpv.1 h
    · exact ⟨c, v, by simpa using h, Or.inr ⟨List.mem_filterMap.2 ⟨_, hp, by simp⟩, Or.inr hpv.2⟩⟩
  | flags fs => exact hfl fs hpv.1 hep
  | unknown n c r => cases hep
  | word w => cases hep

theorem toList_one {α : Type} {o : Option α} {x : α} (h : o.toList = [x]) : o = some x := by
  cases o with
  | none => cases h
  | some y => simpa using h

end Verif
