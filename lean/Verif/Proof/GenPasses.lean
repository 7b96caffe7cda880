import Verif.Proof.GenHandled
/-
The output of the generator as a whole.
-/
namespace Verif

variable [AsmTarget]

/-- A pass over the blocks of a file, with an invariant that depends on the blocks done. -/
theorem fold_pieces' {step : GenSt → Nat → Option GenSt} {s : GSt} {R : GBlock → List Out → Prop}
    (I : List GBlock → GenSt → Prop) (full : List GBlock)
    (hstep : ∀ pre b post, full = pre ++ b :: post → ∀ g g', g.s = s → I pre g → step g b.start = some g' →
      ∃ x, Ext g g' x ∧ R b x ∧ I (pre ++ [b]) g') : ∀ (bs pre : List GBlock) (g g' : GenSt), full = pre ++ bs →
    g.s = s → I pre g → (bs.map (·.start)).foldlM step g = some g' →
    ∃ xs, Ext g g' xs.flatten ∧ List.Forall₂ R bs xs ∧ I full g' := by
  intro bs
  induction bs with
  | nil =>
    intro pre g g' hf _ hi h
    simp only [List.map_nil, List.foldlM_nil, Option.pure_def, Option.some.injEq] at h
    subst h
    rw [List.append_nil] at hf
    exact ⟨[], Ext.refl g, .nil, hf ▸ hi⟩
  | cons b bs ih =>
    intro pre g g' hf hs hi h
    rw [List.map_cons, List.foldlM_cons] at h
    cases hx : step g b.start with
    | none => rw [hx] at h; simp at h
    | some g1 =>
      rw [hx] at h
      obtain ⟨x, h1, h2, h3⟩ := hstep pre b bs hf g g1 hs hi hx
      obtain ⟨xs, h4, h5, h6⟩ := ih (pre ++ [b]) g1 g' (by rw [hf]; simp) (by rw [h1.s, hs]) h3 h
      exact ⟨x :: xs, by rw [List.flatten_cons]; exact h1.trans h4, .cons h2 h5, h6⟩

/-- Blocks of a type. -/
def GFile.ofTy (f : GFile) (ty : BType) : List GBlock := f.bs.filter fun b => b.ty = ty

theorem starts_eq (f : GFile) (ty : BType) : f.starts ty = (f.ofTy ty).map (·.start) := rfl

theorem mem_ofTy {f : GFile} {ty : BType} {b : GBlock} : b ∈ f.ofTy ty ↔ b ∈ f.bs ∧ b.ty = ty := by simp [GFile.ofTy]

theorem start_inj {f : GFile} (h : f.Starts) {a b : GBlock} (ha : a ∈ f.bs) (hb : b ∈ f.bs) (e : a.start = b.start) : a = b := by
  have h1 := at_of_mem h ha
  have h2 := at_of_mem h hb
  rw [e, h2] at h1
  exact (Option.some.inj h1).symm

theorem ofTy_nodup {f : GFile} (h : f.Starts) (ty : BType) : ((f.ofTy ty).map (·.start)).Nodup :=
  List.Nodup.sublist (List.Sublist.map _ (List.filter_sublist)) h

/-- The state with other renames of the new file. -/
def GSt.ren1 (s : GSt) (r : Renames) : GSt := { s with f1 := s.f1.withRen r }

theorem newLabelsLoop_frame : ∀ (ls : List Ln) (f f' : GFile) (nm : Kpstr), newLabelsLoop f nm ls = some f' →
    ∃ r, f' = f.withRen r := by
  intro ls
  induction ls with
  | nil => intro f f' nm h; cases h; exact ⟨f.ren, rfl⟩
  | cons l ls ih =>
    intro f f' nm h
    rw [newLabelsLoop] at h
    dsimp only at h
    split at h
    · cases h
    · split at h
      · exact ih _ _ _ h
      · rw [Option.bind_eq_some_iff] at h
        obtain ⟨f2, h1, h2⟩ := h
        unfold addSuffix at h1
        rw [Option.map_eq_some_iff] at h1
        obtain ⟨r, _, rfl⟩ := h1
        obtain ⟨r', h3⟩ := ih _ _ _ h2
        exact ⟨r', by rw [h3]; rfl⟩

/-- Renaming the functions that are not linked writes nothing. -/
theorem renameUnlinked_frame {g g' : GenSt} {p : Nat} (h : renameUnlinked g p = some g') :
    ∃ r, g' = { g with s := g.s.ren1 r } := by
  unfold renameUnlinked at h
  split at h
  · cases h; exact ⟨g.s.f1.ren, rfl⟩
  · split at h
    · rw [Option.bind_eq_some_iff] at h
      obtain ⟨f2, h1, h2⟩ := h
      rw [Option.map_eq_some_iff] at h2
      obtain ⟨f3, h2, rfl⟩ := h2
      obtain ⟨r, rfl⟩ := newLabelsLoop_frame _ _ _ _ h1
      unfold addSuffix at h2
      rw [Option.map_eq_some_iff] at h2
      obtain ⟨r', _, rfl⟩ := h2
      exact ⟨r', rfl⟩
    · cases h; exact ⟨g.s.f1.ren, rfl⟩

/-- The lines of a declaration, with its symbol renamed. -/
def attrLines (f : GFile) (new : Bool) (b : GBlock) : List Out :=
  b.range.map fun i => .line new i (strDoRename f.ren (some (f.textAt i))) (f.sepAt (strDoRename f.ren (some (f.textAt i))) i)

theorem writeAttr_ext {g g' : GenSt} {new : Bool} {b : GBlock} {x : Option GBlock} (h : writeAttr g new b x = some g') :
    Ext g g' (attrLines (g.s.file new) new b) := by
  unfold writeAttr at h
  rw [Option.map_eq_some_iff] at h
  obtain ⟨o, h1, rfl⟩ := h
  have he : o = attrLines (g.s.file new) new b := by
    unfold writeBlock at h1
    obtain ⟨h2, h3⟩ := mapM_some h1
    rw [← h2]
    apply filterMap_map_of
    intro i hi
    have := h3 i hi
    rw [Option.isSome_iff_exists] at this
    obtain ⟨y, hy⟩ := this
    obtain ⟨s, h4, h5⟩ := writeLine_some hy
    rw [hy, h5]
    simp [lineText] at h4
    rw [h4]
  rw [he]
  refine ext_handledOpt (ext_handled (ext_emit _ _ ?_) _ _) _ _
  unfold recordsOf attrLines
  rw [List.filterMap_eq_nil_iff]
  intro x hx
  obtain ⟨i, _, rfl⟩ := List.mem_map.mp hx
  rfl

/-- Why a block of the new file is handled when the declarations have not been written yet. -/
def Cause1 (s : GSt) (p : Nat) : Prop :=
  (∃ b ∈ s.f0.bs, b.pair = some p ∧ (b.ty = .func ∨ b.ty = .var)) ∨
  (∃ b ∈ s.f1.bs, b.start = p ∧ (b.ty = .func ∨ b.ty = .var)) ∨
  (∃ b ∈ s.f1.bs, b.start = p ∧ (s.f1.ofTy .other).head? = some b)

/-- ... or when the ones of the old file have been written. -/
def Cause2 (s : GSt) (p : Nat) : Prop :=
  Cause1 s p ∨ ∃ b ∈ s.f0.bs, b.ty = .attr ∧ ∃ b1, s.f1.find b.name = some b1 ∧ p = b1.start

/-- A declaration or an other block of the new file that is not written has been handled with a block of the old file. -/
def With0 (s : GSt) (p : Nat) : Prop :=
  (∃ b ∈ s.f0.bs, b.pair = some p ∧ (b.ty = .func ∨ b.ty = .var)) ∨
  ∃ b ∈ s.f0.bs, b.ty = .attr ∧ ∃ b1, s.f1.find b.name = some b1 ∧ p = b1.start

/-- The whole output for a state after the analysis. -/
structure Written (o : GenOpts) (s : GSt) (out : List Out) : Prop where
  pieces : ∃ (r2 : Renames) (hdr : List Out) (olds news unl att0 att1 oth : List (List Out)),
    out = hdr ++ olds.flatten ++ news.flatten ++ unl.flatten ++ att0.flatten ++ att1.flatten ++ oth.flatten ∧
    hdr = ((s.f1.ofTy .other).head?.map (verbatim s.f1 true)).getD [] ∧
    List.Forall₂ (OldPiece o s) s.f0.bs olds ∧
    List.Forall₂ (NewPiece o s) s.f1.bs news ∧
    List.Forall₂ (UnlinkedPiece o (s.ren1 r2)) (s.f1.ofTy .func) unl ∧
    List.Forall₂ (fun b x => x = attrLines s.f0 false b) (s.f0.ofTy .attr) att0 ∧
    List.Forall₂ (fun b x => x = attrLines (s.f1.withRen r2) true b ∨ (x = [] ∧ With0 s b.start)) (s.f1.ofTy .attr) att1 ∧
    List.Forall₂ (fun b x => x = verbatim s.f1 true b ∨
      (x = [] ∧ ((s.f1.ofTy .other).head? = some b ∨ With0 s b.start))) (s.f1.ofTy .other) oth
  nrs : (recordsOf out).map (·.nr) = List.range' 1 (recordsOf out).length
  /- every other block of the old file is handled with a block of the new one -/
  others : ∀ b ∈ s.f0.bs, b.ty = .other → (∃ b1 ∈ s.f1.bs, b1.ty = .other ∧ b1.pair = some b.start) ∨
    ∃ b1 ∈ s.f1.bs, b1.ty = .attr ∧ ∃ b', s.f0.find b1.name = some b' ∧ b'.start = b.start

theorem writeHeader_ext {g g' : GenSt} (hs : g.s.f1.Starts) (h : writeHeader g = some g') :
    Ext g g' (((g.s.f1.ofTy .other).head?.map (verbatim g.s.f1 true)).getD []) ∧
      Hnd g g' (fun p => ∃ b1 ∈ g.s.f1.bs, b1.ty = .other ∧ b1.pair = some p)
        (fun p => ∃ b ∈ g.s.f1.bs, b.start = p ∧ (g.s.f1.ofTy .other).head? = some b) := by
  unfold writeHeader at h
  rw [starts_eq, List.head?_map] at h
  cases hh : (g.s.f1.ofTy .other).head? with
  | none =>
    rw [hh] at h
    cases h
    exact ⟨Ext.refl _, Hnd.refl ..⟩
  | some b =>
    have hb := mem_ofTy.mp (List.mem_of_mem_head? hh)
    rw [hh] at h
    simp only [Option.map_some, Option.bind_some, at_of_mem hs hb.1] at h
    exact ⟨writeOther_ext h, (writeOther_hnd h).mono (fun p hp => ⟨b, hb.1, hb.2, hp⟩)
      fun p hp => ⟨b, hb.1, hp.symm, rfl⟩⟩

theorem file_ren1 (s : GSt) (r : Renames) : (s.ren1 r).f0 = s.f0 ∧ (s.ren1 r).f1 = s.f1.withRen r := ⟨rfl, rfl⟩

theorem verbatim_ren (f : GFile) (r : Renames) (n : Bool) (b : GBlock) : verbatim (f.withRen r) n b = verbatim f n b := rfl

/-- C46 (output): `Written` describes what the generator writes. -/
theorem writeCblocks_written {o : GenOpts} {s : GSt} {g : GenSt} (hs0 : s.f0.Starts) (hs1 : s.f1.Starts)
    (h : writeCblocks o s = some g) : Written o s g.out := by
  unfold writeCblocks at h
  rw [Option.bind_eq_some_iff] at h
  obtain ⟨g1, h1, h⟩ := h
  rw [Option.bind_eq_some_iff] at h
  obtain ⟨g2, h2, h⟩ := h
  rw [Option.bind_eq_some_iff] at h
  obtain ⟨g3, h3, h⟩ := h
  rw [Option.bind_eq_some_iff] at h
  obtain ⟨g4, h4, h⟩ := h
  rw [Option.bind_eq_some_iff] at h
  obtain ⟨g5, h5, h⟩ := h
  rw [Option.bind_eq_some_iff] at h
  obtain ⟨g6, h6, h⟩ := h
  rw [Option.bind_eq_some_iff] at h
  obtain ⟨g7, h7, h⟩ := h
  rw [Option.bind_eq_some_iff] at h
  obtain ⟨g8, h8, h⟩ := h
  split at h
  case isFalse => cases h
  rename_i hall
  cases h
  -- header
  obtain ⟨e1, q1⟩ := writeHeader_ext (g := ⟨s, [], 0, false, [], []⟩) hs1 h1
  have s1 : g1.s = s := e1.s
  -- pass 1
  rw [s1] at h2
  obtain ⟨olds, e2, r2⟩ := fold_pieces (s := s) (R := OldPiece o s) s.f0.bs g1 g2
    (fun b hb g g' hs hst => by
      subst hs
      exact writeOld_ext hs0 hb hst) s1 h2
  have q2 := foldlM_inv (fun g' => g'.s = s ∧ Hnd g1 g' (fun p => ∃ b ∈ s.f0.bs, b.start = p ∧ (b.ty = .func ∨ b.ty = .var))
      (fun p => ∃ b ∈ s.f0.bs, b.pair = some p ∧ (b.ty = .func ∨ b.ty = .var))) ⟨s1, Hnd.refl ..⟩
    (fun p g g' hp hg hst => by
      obtain ⟨hgs, hg⟩ := hg
      subst hgs
      obtain ⟨b, hb, rfl⟩ := List.mem_map.mp hp
      obtain ⟨x, hx, _⟩ := writeOld_ext hs0 hb hst
      exact ⟨hx.s, hg.trans (writeOld_hnd hst)⟩) h2
  have s2 : g2.s = s := q2.1
  -- pass 2
  rw [s2] at h3
  obtain ⟨news, e3, r3⟩ := fold_pieces (s := s) (R := NewPiece o s) s.f1.bs g2 g3
    (fun b hb g g' hs hst => by
      subst hs
      exact writeNew_ext hs1 hb hst) s2 h3
  have q3 := foldlM_inv (fun g' => g'.s = s ∧ Hnd g2 g' NoBlock
      (fun p => ∃ b ∈ s.f1.bs, b.start = p ∧ (b.ty = .func ∨ b.ty = .var))) ⟨s2, Hnd.refl ..⟩
    (fun p g g' hp hg hst => by
      obtain ⟨hgs, hg⟩ := hg
      subst hgs
      obtain ⟨b, hb, rfl⟩ := List.mem_map.mp hp
      obtain ⟨x, hx, _⟩ := writeNew_ext hs1 hb hst
      exact ⟨hx.s, hg.trans (writeNew_hnd hst)⟩) h3
  have s3 : g3.s = s := q3.1
  -- renaming
  have q4 := foldlM_inv (fun g' => ∃ r, g' = { g3 with s := s.ren1 r }) ⟨s.f1.ren, by rw [← s3]; rfl⟩
    (fun p g g' hp hg hst => by
      obtain ⟨r, rfl⟩ := hg
      obtain ⟨r', rfl⟩ := renameUnlinked_frame hst
      exact ⟨r', rfl⟩) h4
  obtain ⟨rr, rfl⟩ := q4
  -- unlinked functions
  have hs1' : (s.ren1 rr).f1.Starts := hs1
  have hs0' : (s.ren1 rr).f0.Starts := hs0
  rw [starts_eq] at h5
  obtain ⟨unl, e5, r5⟩ := fold_pieces (s := s.ren1 rr) (R := UnlinkedPiece o (s.ren1 rr)) (s.f1.ofTy .func) _ g5
    (fun b hb g g' hs hst => by
      have : b ∈ g.s.f1.bs := by rw [hs]; exact (mem_ofTy.mp hb).1
      have h1 : g.s.f1.Starts := by rw [hs]; exact hs1'
      have := writeUnlinked_ext h1 this hst
      rwa [hs] at this) rfl h5
  have q5 := foldlM_inv (fun g' => g'.s = s.ren1 rr ∧ Hnd { g3 with s := s.ren1 rr } g' NoBlock
      (fun p => ∃ b ∈ s.f1.bs, b.start = p ∧ (b.ty = .func ∨ b.ty = .var))) ⟨rfl, Hnd.refl ..⟩
    (fun p g g' hp hg hst => by
      obtain ⟨hgs, hg⟩ := hg
      obtain ⟨b, hb, rfl⟩ := List.mem_map.mp hp
      have hbm := mem_ofTy.mp hb
      have hb1 : b ∈ g.s.f1.bs := by rw [hgs]; exact hbm.1
      have h1 : g.s.f1.Starts := by rw [hgs]; exact hs1'
      obtain ⟨x, hx, _⟩ := writeUnlinked_ext h1 hb1 hst
      refine ⟨hx.s.trans hgs, hg.trans ?_⟩
      unfold writeUnlinked at hst
      rw [at_of_mem h1 hb1] at hst
      dsimp only at hst
      split at hst
      · exact (hnd_emit ..).trans ((writeNewFunction_hnd hst).mono (fun _ h => h)
          fun q hq => ⟨b, hbm.1, hq.symm, Or.inl hbm.2⟩)
      · cases hst; exact Hnd.refl ..) h5
  have s5 : g5.s = s.ren1 rr := q5.1
  -- all handled blocks of the new file so far
  have c5 : ∀ p ∈ g5.h1, Cause1 s p := by
    intro p hp
    rcases q5.2.h1 p hp with hp | hp
    · rcases q3.2.h1 p hp with hp | hp
      · rcases q2.2.h1 p hp with hp | hp
        · rcases q1.h1 p hp with hp | hp
          · cases hp
          · exact Or.inr (Or.inr hp)
        · exact Or.inl hp
      · exact Or.inr (Or.inl hp)
    · exact Or.inr (Or.inl hp)
  have d5 : ∀ p ∈ g5.h0, (∃ b ∈ s.f0.bs, b.start = p ∧ (b.ty = .func ∨ b.ty = .var)) ∨
      ∃ b1 ∈ s.f1.bs, b1.ty = .other ∧ b1.pair = some p := by
    intro p hp
    rcases q5.2.h0 p hp with hp | hp
    · rcases q3.2.h0 p hp with hp | hp
      · rcases q2.2.h0 p hp with hp | hp
        · rcases q1.h0 p hp with hp | hp
          · cases hp
          · exact Or.inr hp
        · exact Or.inl hp
      · exact hp.elim
    · exact hp.elim
  -- declarations of the old file
  have a6 : ∀ b ∈ s.f0.ofTy .attr, ∀ g g', g.s = s.ren1 rr → writeAttr0 g b.start = some g' →
      writeAttr g false b (s.f1.find b.name) = some g' := by
    intro b hb g g' hs hst
    have hbm := mem_ofTy.mp hb
    unfold writeAttr0 at hst
    have hb1 : b ∈ g.s.f0.bs := by rw [hs]; exact hbm.1
    rw [at_of_mem (by rw [hs]; exact hs0') hb1, hs] at hst
    exact hst
  rw [starts_eq, s5] at h6
  obtain ⟨att0, e6, r6⟩ := fold_pieces (s := s.ren1 rr) (R := fun b x => x = attrLines s.f0 false b)
    (s.f0.ofTy .attr) g5 g6 (fun b hb g g' hs hst => by
      have := writeAttr_ext (a6 b hb g g' hs hst)
      rw [hs] at this
      exact ⟨_, this, rfl⟩) s5 h6
  have q6 := foldlM_inv (fun g' => g'.s = s.ren1 rr ∧ Hnd g5 g' (fun p => ∃ b ∈ s.f0.bs, b.start = p ∧ b.ty = .attr)
      (fun p => ∃ b ∈ s.f0.bs, b.ty = .attr ∧ ∃ b1, s.f1.find b.name = some b1 ∧ p = b1.start)) ⟨s5, Hnd.refl ..⟩
    (fun p g g' hp hg hst => by
      obtain ⟨hgs, hg⟩ := hg
      obtain ⟨b, hb, rfl⟩ := List.mem_map.mp hp
      have hbm := mem_ofTy.mp hb
      have := a6 b hb g g' hgs hst
      exact ⟨(writeAttr_ext this).s.trans hgs, hg.trans ((writeAttr0_hnd this).mono
        (fun q hq => ⟨b, hbm.1, hq.symm, hbm.2⟩) fun q hq => ⟨b, hbm.1, hbm.2, hq⟩)⟩) h6
  have s6 : g6.s = s.ren1 rr := q6.1
  have c6 : ∀ p ∈ g6.h1, Cause2 s p := by
    intro p hp
    rcases q6.2.h1 p hp with hp | hp
    · exact Or.inl (c5 p hp)
    · exact Or.inr hp
  have d6 : ∀ p ∈ g6.h0, (∃ b ∈ s.f0.bs, b.start = p ∧ b.ty ≠ .other) ∨
      ∃ b1 ∈ s.f1.bs, b1.ty = .other ∧ b1.pair = some p := by
    intro p hp
    rcases q6.2.h0 p hp with hp | ⟨b, h1, h2, h3⟩
    · rcases d5 p hp with ⟨b, h1, h2, h3⟩ | h
      · exact Or.inl ⟨b, h1, h2, by rcases h3 with h3 | h3 <;> simp [h3]⟩
      · exact Or.inr h
    · exact Or.inl ⟨b, h1, h2, by simp [h3]⟩
  -- declarations of the new file
  rw [starts_eq, s6] at h7
  obtain ⟨att1, e7, r7, i7⟩ := fold_pieces' (s := s.ren1 rr)
    (R := fun b x => x = attrLines (s.f1.withRen rr) true b ∨ (x = [] ∧ With0 s b.start))
    (fun pre g => (∀ p ∈ g.h1, Cause2 s p ∨ p ∈ pre.map (·.start)) ∧
      ∀ p ∈ g.h0, p ∈ g6.h0 ∨ ∃ b1 ∈ s.f1.bs, b1.ty = .attr ∧ ∃ b', s.f0.find b1.name = some b' ∧ b'.start = p)
    (s.f1.ofTy .attr) (fun pre b post hfull g g' hs hi hst => by
      obtain ⟨hi, hj⟩ := hi
      have hb : b ∈ s.f1.ofTy .attr := by rw [hfull]; simp
      have hbm := mem_ofTy.mp hb
      have hb1 : b ∈ g.s.f1.bs := by rw [hs]; exact hbm.1
      unfold writeAttr1 at hst
      rw [at_of_mem (by rw [hs]; exact hs1') hb1] at hst
      dsimp only at hst
      split at hst
      · rename_i hc
        cases hst
        refine ⟨[], Ext.refl _, Or.inr ⟨rfl, ?_⟩, fun p hp => ?_, hj⟩
        · rcases hi b.start (by simpa using hc) with (hc | hc) | hc
          · rcases hc with hc | ⟨b2, k1, k2, k3⟩ | ⟨b2, k1, k2, k3⟩
            · exact Or.inl hc
            · have := start_inj hs1 k1 hbm.1 k2
              subst this
              rw [hbm.2] at k3
              rcases k3 with k3 | k3 <;> cases k3
            · have := start_inj hs1 k1 hbm.1 k2
              subst this
              have := (mem_ofTy.mp (List.mem_of_mem_head? k3)).2
              rw [hbm.2] at this
              cases this
          · exact Or.inr hc
          · have hn := ofTy_nodup hs1 .attr
            rw [hfull, List.map_append, List.map_cons, List.nodup_append] at hn
            exact absurd rfl (hn.2.2 _ hc _ (by simp))
        · rcases hi p hp with h | h
          · exact Or.inl h
          · exact Or.inr (by rw [List.map_append]; exact List.mem_append_left _ h)
      · rw [hs] at hst
        have hx := writeAttr_ext hst
        rw [hs] at hx
        have hy := writeAttr1_hnd hst
        refine ⟨_, hx, Or.inl rfl, fun p hp => ?_, fun p hp => ?_⟩
        · rcases hy.h1 p hp with hp | hp
          · rcases hi p hp with h | h
            · exact Or.inl h
            · exact Or.inr (by rw [List.map_append]; exact List.mem_append_left _ h)
          · exact Or.inr (by rw [hp]; simp)
        · rcases hy.h0 p hp with hp | ⟨b0, k1, k2⟩
          · exact hj p hp
          · exact Or.inr ⟨b, hbm.1, hbm.2, b0, k1, k2.symm⟩)
    (s.f1.ofTy .attr) [] g6 g7 rfl s6 ⟨fun p hp => Or.inl (c6 p hp), fun p hp => Or.inl hp⟩ h7
  have s7 : g7.s = s.ren1 rr := e7.s.trans s6
  -- other blocks
  rw [starts_eq, s7] at h8
  obtain ⟨oth, e8, r8, i8⟩ := fold_pieces' (s := s.ren1 rr)
    (R := fun b x => x = verbatim s.f1 true b ∨ (x = [] ∧ ((s.f1.ofTy .other).head? = some b ∨ With0 s b.start)))
    (fun pre g => (∀ p ∈ g.h1, Cause2 s p ∨ p ∈ (s.f1.ofTy .attr).map (·.start) ∨ p ∈ pre.map (·.start)) ∧
      ∀ p ∈ g.h0, p ∈ g7.h0 ∨ ∃ b1 ∈ s.f1.bs, b1.ty = .other ∧ b1.pair = some p)
    (s.f1.ofTy .other) (fun pre b post hfull g g' hs hi hst => by
      obtain ⟨hi, hj⟩ := hi
      have hb : b ∈ s.f1.ofTy .other := by rw [hfull]; simp
      have hbm := mem_ofTy.mp hb
      have hb1 : b ∈ g.s.f1.bs := by rw [hs]; exact hbm.1
      unfold writeOthers at hst
      rw [at_of_mem (by rw [hs]; exact hs1') hb1] at hst
      dsimp only at hst
      split at hst
      · rename_i hc
        cases hst
        refine ⟨[], Ext.refl _, Or.inr ⟨rfl, ?_⟩, fun p hp => ?_, hj⟩
        · rcases hi b.start (by simpa using hc) with (hc | hc) | hc | hc
          · rcases hc with hc | ⟨b2, k1, k2, k3⟩ | ⟨b2, k1, k2, k3⟩
            · exact Or.inr (Or.inl hc)
            · have := start_inj hs1 k1 hbm.1 k2
              subst this
              rw [hbm.2] at k3
              rcases k3 with k3 | k3 <;> cases k3
            · have := start_inj hs1 k1 hbm.1 k2
              subst this
              exact Or.inl k3
          · exact Or.inr (Or.inr hc)
          · obtain ⟨b2, k1, k2⟩ := List.mem_map.mp hc
            have k3 := mem_ofTy.mp k1
            have := start_inj hs1 k3.1 hbm.1 k2
            subst this
            rw [hbm.2] at k3
            cases k3.2
          · have hn := ofTy_nodup hs1 .other
            rw [hfull, List.map_append, List.map_cons, List.nodup_append] at hn
            exact absurd rfl (hn.2.2 _ hc _ (by simp))
        · rcases hi p hp with h | h | h
          · exact Or.inl h
          · exact Or.inr (Or.inl h)
          · exact Or.inr (Or.inr (by rw [List.map_append]; exact List.mem_append_left _ h))
      · have hx := writeOther_ext hst
        rw [hs] at hx
        have hy := writeOther_hnd hst
        refine ⟨_, hx, Or.inl rfl, fun p hp => ?_, fun p hp => ?_⟩
        · rcases hy.h1 p hp with hp | hp
          · rcases hi p hp with h | h | h
            · exact Or.inl h
            · exact Or.inr (Or.inl h)
            · exact Or.inr (Or.inr (by rw [List.map_append]; exact List.mem_append_left _ h))
          · exact Or.inr (Or.inr (by rw [hp]; simp))
        · rcases hy.h0 p hp with hp | hp
          · exact hj p hp
          · exact Or.inr ⟨b, hbm.1, hbm.2, hp⟩)
    (s.f1.ofTy .other) [] g7 g rfl s7 ⟨fun p hp => (i7.1 p hp).imp (fun h => h) Or.inl, fun p hp => Or.inl hp⟩ h8
  -- together
  have eAll : g.out = (((s.f1.ofTy .other).head?.map (verbatim s.f1 true)).getD []) ++ olds.flatten ++ news.flatten ++
      unl.flatten ++ att0.flatten ++ att1.flatten ++ oth.flatten := by
    rw [e8.out, e7.out, e6.out, e5.out]
    show g3.out ++ _ ++ _ ++ _ ++ _ = _
    rw [e3.out, e2.out, e1.out]
    rfl
  have e123 := (e1.trans e2).trans e3
  have e5678 := ((e5.trans e6).trans e7).trans e8
  refine ⟨⟨rr, _, olds, news, unl, att0, att1, oth, eAll, rfl, r2, r3, r5, r6, r7, r8⟩, ?_, ?_⟩
  · have k : ∀ {X Y : List Out}, Ext ⟨s, [], 0, false, [], []⟩ g3 X → Ext { g3 with s := s.ren1 rr } g Y →
        (recordsOf (X ++ Y)).map (·.nr) = List.range' 1 (recordsOf (X ++ Y)).length := by
      intro X Y hX hY
      have k3 := hX.nsyms
      dsimp only at k3
      rw [recordsOf_append, List.map_append, hX.nrs, hY.nrs, List.length_append, ← List.range'_append_1]
      dsimp only
      simp only [k3, Nat.zero_add, Nat.add_comm]
    have := k e123 e5678
    rw [eAll]
    simp only [List.append_assoc] at this ⊢
    exact this
  · intro b hb ht
    simp only [Bool.and_eq_true, List.all_eq_true] at hall
    have hb0 := hall.1 b (by rw [e8.s, s7]; exact hb)
    rcases i8.2 b.start (by simpa using hb0) with hp | hp
    · rcases i7.2 b.start hp with hp | hp
      · rcases d6 b.start hp with ⟨b2, k1, k2, k3⟩ | hp
        · have := start_inj hs0 k1 hb k2
          subst this
          exact absurd ht k3
        · exact Or.inl hp
      · exact Or.inr hp
    · exact Or.inl hp

end Verif
