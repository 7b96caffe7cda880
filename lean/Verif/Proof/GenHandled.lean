import Verif.Proof.GenWrite
/-
Which blocks have the flag `handled`.
-/
namespace Verif

variable [AsmTarget]

/-- Blocks handled between two states: of the old file only ones in `P0`, of the new file only ones in `P1`. -/
structure Hnd (g g' : GenSt) (P0 P1 : Nat → Prop) : Prop where
  h0 : ∀ p ∈ g'.h0, p ∈ g.h0 ∨ P0 p
  h1 : ∀ p ∈ g'.h1, p ∈ g.h1 ∨ P1 p

def NoBlock : Nat → Prop := fun _ => False

theorem Hnd.refl (g : GenSt) (P0 P1 : Nat → Prop) : Hnd g g P0 P1 := ⟨fun _ h => Or.inl h, fun _ h => Or.inl h⟩

theorem Hnd.mono {g g' : GenSt} {P0 P1 Q0 Q1 : Nat → Prop} (h : Hnd g g' P0 P1) (a : ∀ p, P0 p → Q0 p)
    (b : ∀ p, P1 p → Q1 p) : Hnd g g' Q0 Q1 :=
  ⟨fun p hp => (h.h0 p hp).imp (fun h => h) (a p), fun p hp => (h.h1 p hp).imp (fun h => h) (b p)⟩

theorem Hnd.trans {g1 g2 g3 : GenSt} {P0 P1 : Nat → Prop} (h : Hnd g1 g2 P0 P1) (h' : Hnd g2 g3 P0 P1) :
    Hnd g1 g3 P0 P1 := by
  constructor
  · intro p hp
    rcases h'.h0 p hp with hp | hp
    · exact h.h0 p hp
    · exact Or.inr hp
  · intro p hp
    rcases h'.h1 p hp with hp | hp
    · exact h.h1 p hp
    · exact Or.inr hp

theorem hnd_emit (g : GenSt) (x : List Out) (P0 P1 : Nat → Prop) : Hnd g (g.emit x) P0 P1 :=
  ⟨fun _ h => Or.inl h, fun _ h => Or.inl h⟩

theorem hnd_handled0 {g : GenSt} {P0 P1 : Nat → Prop} {p : Nat} (hp : P0 p) : Hnd g (g.handled false p) P0 P1 := by
  constructor
  · intro q hq
    rcases List.mem_cons.mp hq with rfl | hq
    · exact Or.inr hp
    · exact Or.inl hq
  · intro q hq
    exact Or.inl hq

theorem hnd_handled1 {g : GenSt} {P0 P1 : Nat → Prop} {p : Nat} (hp : P1 p) : Hnd g (g.handled true p) P0 P1 := by
  constructor
  · intro q hq
    exact Or.inl hq
  · intro q hq
    rcases List.mem_cons.mp hq with rfl | hq
    · exact Or.inr hp
    · exact Or.inl hq

theorem hnd_handledOpt0 {g : GenSt} {P0 P1 : Nat → Prop} {p : Option Nat} (hp : ∀ q, p = some q → P0 q) :
    Hnd g (g.handledOpt false p) P0 P1 := by
  cases p with
  | none => exact Hnd.refl ..
  | some q => exact hnd_handled0 (hp q rfl)

theorem hnd_handledOpt1 {g : GenSt} {P0 P1 : Nat → Prop} {p : Option Nat} (hp : ∀ q, p = some q → P1 q) :
    Hnd g (g.handledOpt true p) P0 P1 := by
  cases p with
  | none => exact Hnd.refl ..
  | some q => exact hnd_handled1 (hp q rfl)

theorem writeOther_hnd {g g' : GenSt} {b : GBlock} (h : writeOther g b = some g') :
    Hnd g g' (fun p => b.pair = some p) (fun p => p = b.start) := by
  unfold writeOther at h
  rw [Option.map_eq_some_iff] at h
  obtain ⟨o, _, rfl⟩ := h
  exact Hnd.trans (Hnd.trans (hnd_emit ..) (hnd_handled1 (by rfl))) (hnd_handledOpt0 fun _ h => h)

theorem writeVar_hnd {g g' : GenSt} {b : GBlock} (h : writeVar g b = some g') :
    Hnd g g' (fun p => p = b.start) (fun p => b.pair = some p) := by
  unfold writeVar at h
  dsimp only at h
  rw [Option.map_eq_some_iff] at h
  obtain ⟨o, _, rfl⟩ := h
  exact Hnd.trans (Hnd.trans (hnd_emit ..) (hnd_handled0 (by rfl))) (hnd_handledOpt1 fun _ h => h)

theorem writeAttr0_hnd {g g' : GenSt} {b : GBlock} {x : Option GBlock} (h : writeAttr g false b x = some g') :
    Hnd g g' (fun p => p = b.start) (fun p => ∃ b1, x = some b1 ∧ p = b1.start) := by
  unfold writeAttr at h
  rw [Option.map_eq_some_iff] at h
  obtain ⟨o, _, rfl⟩ := h
  refine Hnd.trans (Hnd.trans (hnd_emit ..) (hnd_handled0 (by rfl))) (hnd_handledOpt1 fun q h => ?_)
  rw [Option.map_eq_some_iff] at h
  obtain ⟨b1, h1, h2⟩ := h
  exact ⟨b1, h1, h2.symm⟩

theorem writeAttr1_hnd {g g' : GenSt} {b : GBlock} {x : Option GBlock} (h : writeAttr g true b x = some g') :
    Hnd g g' (fun p => ∃ b0, x = some b0 ∧ p = b0.start) (fun p => p = b.start) := by
  unfold writeAttr at h
  rw [Option.map_eq_some_iff] at h
  obtain ⟨o, _, rfl⟩ := h
  refine Hnd.trans (Hnd.trans (hnd_emit ..) (hnd_handled1 (by rfl))) (hnd_handledOpt0 fun q h => ?_)
  rw [Option.map_eq_some_iff] at h
  obtain ⟨b1, h1, h2⟩ := h
  exact ⟨b1, h1, h2.symm⟩

theorem changeSection_hnd (g : GenSt) (sect : SectInfo) (push : Bool) (P0 P1 : Nat → Prop) :
    Hnd g (changeSection g sect push) P0 P1 := by
  unfold changeSection
  split
  · exact hnd_emit ..
  · split
    · exact hnd_emit ..
    · exact ⟨fun _ h => Or.inl h, fun _ h => Or.inl h⟩

theorem genLine_hnd {fl : WFlags} {first i : Nat} {g g' : GenSt} (h : genLine fl first g i = some g')
    (P0 P1 : Nat → Prop) : Hnd g g' P0 P1 := by
  unfold genLine at h
  split at h
  · cases h
  split at h
  case h_8 =>
    unfold addComm at h
    rw [Option.map_eq_some_iff] at h
    obtain ⟨⟨nm, sz, al⟩, _, rfl⟩ := h
    exact (changeSection_hnd ..).trans (hnd_emit ..)
  case h_9 =>
    rw [Option.map_eq_some_iff] at h
    obtain ⟨_, _, rfl⟩ := h
    exact hnd_emit ..
  all_goals
    cases h
    split
    · exact Hnd.refl ..
    · exact changeSection_hnd ..

theorem genBlock_hnd {o : GenOpts} {fl : WFlags} {g g' : GenSt} {b : GBlock} (h : genBlock o fl g b = some g') :
    Hnd g g' NoBlock (fun p => p = b.start) := by
  unfold genBlock at h
  split at h
  · cases h
  dsimp only at h
  rw [Option.map_eq_some_iff] at h
  obtain ⟨g2, h1, rfl⟩ := h
  have h2 := foldlM_inv (fun g' => Hnd g g' NoBlock (fun p => p = b.start)) (?_) (fun x s s' _ hs hx =>
    hs.trans (genLine_hnd hx _ _)) h1
  · exact (h2.trans (hnd_emit ..)).trans (hnd_handled1 rfl)
  · split
    · exact (changeSection_hnd ..).trans (hnd_emit ..)
    · exact changeSection_hnd ..

theorem writeNewFunction_hnd {o : GenOpts} {g g' : GenSt} {b : GBlock} (h : writeNewFunction o g b = some g') :
    Hnd g g' NoBlock (fun p => p = b.start) := by
  unfold writeNewFunction at h
  rw [Option.map_eq_some_iff] at h
  obtain ⟨g2, h1, rfl⟩ := h
  have := genBlock_hnd h1
  exact ⟨this.h0, this.h1⟩

theorem writeFunc_hnd {o : GenOpts} {g g' : GenSt} {b : GBlock} (h : writeFunc o g b = some g') :
    Hnd g g' (fun p => p = b.start) (fun p => b.pair = some p) := by
  unfold writeFunc at h
  dsimp only at h
  rw [Option.bind_eq_some_iff] at h
  obtain ⟨v, h1, h2⟩ := h
  generalize Out.text (lit "#---------- func ---------\n") ::
    (if (o.global || becameGlobal g b) = true then [Out.globl b.name.text] else []) = pre at h2
  have he : Hnd g ((g.emit (pre ++ v)).handled false b.start) (fun p => p = b.start) (fun p => b.pair = some p) :=
    (hnd_emit ..).trans (hnd_handled0 rfl)
  generalize (g.emit (pre ++ v)).handled false b.start = g1 at h2 he
  cases hp : b.pair.bind g1.s.f1.at with
  | none => rw [hp] at h2; cases h2; exact he
  | some b1 =>
    rw [hp] at h2
    dsimp only at h2
    have hb : b.pair = some b1.start := by
      rw [Option.bind_eq_some_iff] at hp
      obtain ⟨p, h3, h4⟩ := hp
      rw [h3, (mem_of_at h4).2]
    have he2 := he.trans (hnd_handled1 (P1 := fun p => b.pair = some p) (p := b1.start) hb)
    split at h2
    · cases h2; exact he2
    · rw [Option.map_eq_some_iff] at h2
      obtain ⟨g3, h3, rfl⟩ := h2
      refine ((he2.trans (hnd_emit ..)).trans ((writeNewFunction_hnd h3).mono (fun _ h => h.elim) fun p hp => ?_)).trans
        (hnd_emit ..)
      rw [hp]; exact hb

/-- Old functions and variables. -/
theorem writeOld_hnd {o : GenOpts} {g g' : GenSt} {p : Nat} (h : writeOld o g p = some g') :
    Hnd g g' (fun p => ∃ b ∈ g.s.f0.bs, b.start = p ∧ (b.ty = .func ∨ b.ty = .var))
      (fun p => ∃ b ∈ g.s.f0.bs, b.pair = some p ∧ (b.ty = .func ∨ b.ty = .var)) := by
  unfold writeOld at h
  split at h
  · cases h; exact Hnd.refl ..
  · rename_i b hb
    have hm := (mem_of_at hb).1
    split at h
    · rename_i ht
      exact (writeFunc_hnd h).mono (fun q hq => ⟨b, hm, hq.symm, Or.inl ht⟩) fun q hq => ⟨b, hm, hq, Or.inl ht⟩
    · rename_i ht
      exact (writeVar_hnd h).mono (fun q hq => ⟨b, hm, hq.symm, Or.inr ht⟩) fun q hq => ⟨b, hm, hq, Or.inr ht⟩
    · cases h; exact Hnd.refl ..

/-- New functions and variables. -/
theorem writeNew_hnd {o : GenOpts} {g g' : GenSt} {p : Nat} (h : writeNew o g p = some g') :
    Hnd g g' NoBlock (fun p => ∃ b ∈ g.s.f1.bs, b.start = p ∧ (b.ty = .func ∨ b.ty = .var)) := by
  unfold writeNew at h
  split at h
  · cases h; exact Hnd.refl ..
  · rename_i b hb
    have hm := (mem_of_at hb).1
    split at h
    · cases h; exact Hnd.refl ..
    split at h
    · rename_i ht
      exact (hnd_emit ..).trans ((writeNewFunction_hnd h).mono (fun _ h => h) fun q hq => ⟨b, hm, hq.symm, Or.inl ht⟩)
    · rename_i ht
      exact (genBlock_hnd h).mono (fun _ h => h) fun q hq => ⟨b, hm, hq.symm, Or.inr ht⟩
    · cases h; exact Hnd.refl ..

end Verif
