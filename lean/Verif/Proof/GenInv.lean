import Verif.Proof.GenMap
import Verif.Spec.Gensrc
/-
The state of the analysis as a decoration of the loaded files, and its invariant.
-/
namespace Verif

variable [AsmTarget]

/-! ### Tokens have the characters of their line -/

theorem getTokenD_sub (d : List Byte) (str : Option (List Byte)) : ∃ s, (str = some s ∨ s = []) ∧
    (getTokenD d str).1.s <:+ s ∧ ∀ r, (getTokenD d str).2 = some r → r <:+ s := by
  cases str with
  | none => exact ⟨[], Or.inr rfl, by simp [getTokenD], fun r h => by simp [getTokenD] at h⟩
  | some s =>
    refine ⟨s, Or.inl rfl, ?_⟩
    unfold getTokenD
    dsimp only
    split
    · exact ⟨List.nil_suffix, fun r h => by cases h⟩
    · refine ⟨List.dropWhile_suffix _, fun r h => ?_⟩
      split at h
      · cases h
      · cases h
        exact (List.dropWhile_suffix _).trans ((tokenEnd_suffix _ _).trans (List.dropWhile_suffix _))

/-- The characters of a string pointer. -/
def charsIn (str : Option (List Byte)) (P : Byte → Prop) : Prop := ∀ s, str = some s → ∀ c ∈ s, P c

theorem getTokenD_chars {d : List Byte} {str : Option (List Byte)} {P : Byte → Prop} (h : charsIn str P) :
    (∀ c ∈ (getTokenD d str).1.s, P c) ∧ charsIn (getTokenD d str).2 P := by
  obtain ⟨s, h1, h2, h3⟩ := getTokenD_sub d str
  have hs : ∀ c ∈ s, P c := by
    rcases h1 with rfl | rfl
    · exact h s rfl
    · intro c hc; cases hc
  exact ⟨fun c hc => hs c (h2.subset hc), fun r hr c hc => hs c ((h3 r hr).subset hc)⟩

theorem text_sub (x : Kpstr) : ∀ c ∈ x.text, c ∈ x.s := fun _ hc => List.mem_of_mem_take hc

theorem tokens_chars {P : Byte → Prop} : ∀ (n : Nat) (str : Option (List Byte)), str.elim 0 (fun s => s.length + 1) ≤ n →
    charsIn str P → ∀ x ∈ tokens str, ∀ c ∈ x.text, P c := by
  intro n
  induction n with
  | zero =>
    intro str hl _ x hx
    cases str with
    | none => rw [tokens_none] at hx; cases hx
    | some s => simp at hl
  | succ n ih =>
    intro str hl h x hx
    cases str with
    | none => rw [tokens_none] at hx; cases hx
    | some s =>
      rw [tokens_some] at hx
      have hc := getTokenD_chars (d := delims) h
      rcases List.mem_cons.mp hx with rfl | hx
      · exact fun c hcc => hc.1 c (text_sub _ c hcc)
      · refine ih (getToken (some s)).2 ?_ hc.2 x hx
        cases he : (getToken (some s)).2 with
        | none => simp
        | some e =>
          have := getTokenD_length delims he
          simp only [Option.elim_some] at hl ⊢
          omega

theorem tokens_noNul {s : List Byte} (h : 0#8 ∉ s) {x : Kpstr} (hx : x ∈ tokens (some s)) : 0#8 ∉ x.text := by
  intro hc
  exact tokens_chars (P := fun c => c ∈ s) _ _ (Nat.le_refl _) (fun s' e c hc => by cases e; exact hc) x hx _ hc |> h

theorem firstTok_noNul {s : List Byte} (h : 0#8 ∉ s) : 0#8 ∉ firstTok s := by
  apply tokens_noNul h (x := (getToken (some s)).1)
  rw [tokens_some]
  exact List.mem_cons_self

/-! ### Decorations -/

def GBlock.dec (P : Corresp) (I U : Nat → Bool) (b : GBlock) : GBlock :=
  { b with pair := P b.start, ignore := I b.start, unlink := U b.start }

/-- What the analysis of variables and functions adds to the loaded files. -/
structure AnSt where
  P0 : Corresp
  P1 : Corresp
  I : Nat → Bool
  U : Nat → Bool
  r0 : Renames
  r1 : Renames

def noFlag : Nat → Bool := fun _ => false

def GFile.dec (f : GFile) (P : Corresp) (I U : Nat → Bool) (r : Renames) : GFile :=
  { f with bs := f.bs.map (GBlock.dec P I U), ren := r }

def AnSt.st (L : GSt) (a : AnSt) : GSt := ⟨L.f0.dec a.P0 noFlag noFlag a.r0, L.f1.dec a.P1 a.I a.U a.r1⟩

/-- A map with one entry changed. -/
def setAt {β : Type} (f : Nat → β) (s : Nat) (v : β) : Nat → β := fun p => if p = s then v else f p

section
variable (f : GFile) (P : Corresp) (I U : Nat → Bool) (r : Renames)

theorem dec_at (p : Nat) : (f.dec P I U r).at p = (f.at p).map (GBlock.dec P I U) := by
  unfold GFile.at GFile.dec
  dsimp only
  rw [List.find?_map]
  rfl

theorem dec_find (nm : Kpstr) : (f.dec P I U r).find nm = (f.find nm).map (GBlock.dec P I U) := by
  unfold GFile.find GFile.dec
  dsimp only
  rw [List.find?_map]
  rfl

theorem dec_findHuman (nm : Kpstr) : (f.dec P I U r).findHuman nm = (f.findHuman nm).map (GBlock.dec P I U) := by
  unfold GFile.findHuman GFile.dec
  dsimp only
  rw [List.find?_map]
  rfl

theorem dec_starts (ty : BType) : (f.dec P I U r).starts ty = f.starts ty := by
  unfold GFile.starts GFile.dec
  dsimp only
  rw [List.filter_map, List.map_map]
  rfl

theorem dec_pair (s : Nat) (q : Option Nat) : (f.dec P I U r).upd s (fun b => { b with pair := q }) =
    f.dec (setAt P s q) I U r := by
  unfold GFile.upd GFile.dec
  simp only [List.map_map]
  congr 1
  apply List.map_congr_left
  intro b _
  unfold Function.comp GBlock.dec setAt
  dsimp only
  split <;> rfl

theorem dec_ignore (s : Nat) (q : Bool) : (f.dec P I U r).upd s (fun b => { b with ignore := q }) =
    f.dec P (setAt I s q) U r := by
  unfold GFile.upd GFile.dec
  simp only [List.map_map]
  congr 1
  apply List.map_congr_left
  intro b _
  unfold Function.comp GBlock.dec setAt
  dsimp only
  split <;> rfl

theorem dec_unlink (s : Nat) (q : Bool) : (f.dec P I U r).upd s (fun b => { b with unlink := q }) =
    f.dec P I (setAt U s q) r := by
  unfold GFile.upd GFile.dec
  simp only [List.map_map]
  congr 1
  apply List.map_congr_left
  intro b _
  unfold Function.comp GBlock.dec setAt
  dsimp only
  split <;> rfl

theorem dec_labels (b : GBlock) : (f.dec P I U r).labels b = f.labels b := rfl
theorem dec_lines (b : GBlock) : (f.dec P I U r).lines b = f.lines b := rfl

end

theorem AnSt.setPair (L : GSt) (a : AnSt) (b0 b1 : GBlock) : (a.st L).setPair b0 b1 =
    ({ a with P0 := setAt a.P0 b0.start (some b1.start), P1 := setAt a.P1 b1.start (some b0.start) } : AnSt).st L := by
  unfold GSt.setPair AnSt.st
  dsimp only
  rw [dec_pair, dec_pair]

theorem AnSt.add0 (L : GSt) (a : AnSt) (x y : Kpstr) : (a.st L).add0 x y =
    (renameAdd a.r0 x y).map fun r => ({ a with r0 := r } : AnSt).st L := rfl
theorem AnSt.add1 (L : GSt) (a : AnSt) (x y : Kpstr) : (a.st L).add1 x y =
    (renameAdd a.r1 x y).map fun r => ({ a with r1 := r } : AnSt).st L := rfl
theorem AnSt.del0 (L : GSt) (a : AnSt) (x : Kpstr) : (a.st L).del0 x =
    (renameDel a.r0 x).map fun r => ({ a with r0 := r } : AnSt).st L := rfl
theorem AnSt.del1 (L : GSt) (a : AnSt) (x : Kpstr) : (a.st L).del1 x =
    (renameDel a.r1 x).map fun r => ({ a with r1 := r } : AnSt).st L := rfl

/-- What is known of the loaded files. -/
structure LOk (L : GSt) : Prop where
  st0 : L.f0.Starts
  st1 : L.f1.Starts
  ok0 : ∀ b ∈ L.f0.bs, b.name.Ok ∧ b.human.Ok ∧ 0#8 ∉ b.name.text
  ok1 : ∀ b ∈ L.f1.bs, b.name.Ok ∧ b.human.Ok ∧ 0#8 ∉ b.name.text
  nz0 : ∀ l ∈ L.f0.ls, 0#8 ∉ l.text
  nz1 : ∀ l ∈ L.f1.ls, 0#8 ∉ l.text
  uniq0 : ∀ b ∈ L.f0.bs, ∀ c ∈ L.f0.bs, b.name.text = c.name.text → b.name.text ≠ [] → b = c
  uniq1 : ∀ b ∈ L.f1.bs, ∀ c ∈ L.f1.bs, b.name.text = c.name.text → b.name.text ≠ [] → b = c

/-- The invariant of the analysis. -/
structure Inv (L : GSt) (a : AnSt) : Prop where
  ok0 : RenOk a.r0
  ok1 : RenOk a.r1
  just0 : ∀ x y, mapOf a.r0 x = some y → Corr L a.P0 x y ∨
    ∃ b0 ∈ L.f0.bs, ∃ b1 ∈ L.f1.bs, a.P0 b0.start = some b1.start ∧ x = b0.name.text ∧ y = b1.name.text ++ kp0
  just1 : ∀ x y, mapOf a.r1 x = some y → y = x ++ kp0 ∨
    ∃ b0 ∈ L.f0.bs, ∃ b1 ∈ L.f1.bs, a.P0 b0.start = some b1.start ∧ x = b1.name.text ∧ y = b0.name.text
  sym : ∀ b1 ∈ L.f1.bs, ∀ p, a.P1 b1.start = some p → ∃ b0 ∈ L.f0.bs, b0.start = p ∧ a.P0 p = some b1.start
  mat : Matching L a.P0
  rev : ∀ b0 ∈ L.f0.bs, ∀ q, a.P0 b0.start = some q → (a.P1 q).isSome = true

/-- Only renames have changed, and none is new. -/
structure Shrink (a a' : AnSt) : Prop where
  P0 : a'.P0 = a.P0
  P1 : a'.P1 = a.P1
  I : a'.I = a.I
  U : a'.U = a.U
  ok0 : RenOk a'.r0
  ok1 : RenOk a'.r1
  map0 : ∀ x y, mapOf a'.r0 x = some y → mapOf a.r0 x = some y
  map1 : ∀ x y, mapOf a'.r1 x = some y → mapOf a.r1 x = some y

theorem Shrink.refl {a : AnSt} (h0 : RenOk a.r0) (h1 : RenOk a.r1) : Shrink a a :=
  ⟨rfl, rfl, rfl, rfl, h0, h1, fun _ _ h => h, fun _ _ h => h⟩

theorem Shrink.trans {a b c : AnSt} (h : Shrink a b) (h' : Shrink b c) : Shrink a c :=
  ⟨h'.P0.trans h.P0, h'.P1.trans h.P1, h'.I.trans h.I, h'.U.trans h.U, h'.ok0, h'.ok1,
    fun x y e => h.map0 x y (h'.map0 x y e), fun x y e => h.map1 x y (h'.map1 x y e)⟩

theorem Inv.shrink {L : GSt} {a a' : AnSt} (h : Inv L a) (hs : Shrink a a') : Inv L a' := by
  refine ⟨hs.ok0, hs.ok1, ?_, ?_, ?_, ?_, ?_⟩
  · rw [hs.P0]; exact fun x y e => h.just0 x y (hs.map0 x y e)
  · rw [hs.P0]; exact fun x y e => h.just1 x y (hs.map1 x y e)
  · rw [hs.P0, hs.P1]; exact h.sym
  · rw [hs.P0]; exact h.mat
  · rw [hs.P0, hs.P1]; exact h.rev

theorem Corr.mono {L : GSt} {P P' : Corresp} (h : ∀ p q, P p = some q → P' p = some q) {a b : List Byte} (hc : Corr L P a b) :
    Corr L P' a b := by
  obtain ⟨b0, h0, b1, h1, h2, h3⟩ := hc
  exact ⟨b0, h0, b1, h1, h _ _ h2, h3⟩

theorem Alike.mono {L : GSt} {P P' : Corresp} (h : ∀ p q, P p = some q → P' p = some q) {a b : List Byte} (hc : Alike L P a b) :
    Alike L P' a b := by
  rcases hc with e | hc | ⟨n, h1, h2⟩
  · exact Or.inl e
  · exact Or.inr (Or.inl (hc.mono h))
  · exact Or.inr (Or.inr ⟨n, h1.mono h, h2.mono h⟩)

theorem SameTokens.mono {c c' : CmpSpec} (h : ∀ x y, c.alike x y → c'.alike x y) {a b : List Byte} (hs : c.sameTokens a b) :
    c'.sameTokens a b := by
  unfold CmpSpec.sameTokens at *
  exact hs.imp fun x y hxy => h _ _ hxy

theorem SameCode.mono {c : CmpSpec} {R : List Byte → List Byte → Prop} (h : ∀ x y, c.alike x y → R x y) {l0 l1 : List Ln}
    (hs : SameCode c l0 l1) : SameCode { c with alike := R } l0 l1 := by
  have hst : ∀ {a b : List Byte}, c.sameTokens a b → CmpSpec.sameTokens { c with alike := R } a b :=
    fun h' => SameTokens.mono (c' := { c with alike := R }) h h'
  induction hs with
  | nil => exact .nil
  | skip0 h1 _ ih => exact .skip0 h1 ih
  | skip1 h1 _ ih => exact .skip1 h1 ih
  | line h1 h2 _ ih => exact .line h1 (hst h2) ih
  | comment h1 h2 h3 _ ih => exact .comment h1 h2 h3 ih
  | lineno h1 h2 h3 _ ih =>
    exact .lineno h1 h2 ⟨h3.same.imp fun x y hxy => hst hxy, h3.short, h3.call⟩ ih
  | bug h1 h2 h3 _ ih => exact .bug h1 h2 h3 ih
  | path h1 h2 h3 _ ih => exact .path h1 h2 h3 ih
  | descriptor h1 h2 h3 _ ih => exact .descriptor h1 h2 h3 ih

theorem SameBlocks.mono {o : GenOpts} {L : GSt} {P P' : Corresp} (h : ∀ p q, P p = some q → P' p = some q) {b0 b1 : GBlock}
    (hs : SameBlocks o L P b0 b1) : SameBlocks o L P' b0 b1 :=
  SameCode.mono (R := Alike L P') (fun _ _ hc => Alike.mono h hc) hs

/-- Tokens that the renames count as the same are alike. -/
theorem Inv.alike {L : GSt} {a : AnSt} (hL : LOk L) (h : Inv L a) {x y : List Byte} (_hx : 0#8 ∉ x) (hy : 0#8 ∉ y)
    (hs : SameToken (mapOf a.r0) (mapOf a.r1) x y) : Alike L a.P0 x y := by
  have kp : ∀ z : List Byte, 0#8 ∈ z ++ kp0 := by
    intro z
    unfold kp0
    simp
  have corrNul : ∀ {u v : List Byte}, Corr L a.P0 u v → 0#8 ∉ v := by
    rintro u v ⟨b0, h0, b1, h1, h2, ⟨_, rfl⟩ | ⟨i, l0, l1, h3, h4, _, rfl⟩⟩
    · exact (hL.ok1 b1 h1).2.2
    · have := List.mem_of_getElem? h4
      unfold GFile.labels at this
      have := (List.mem_filter.mp this).1
      unfold GFile.lines at this
      exact firstTok_noNul (hL.nz1 l1 (List.mem_of_mem_drop (List.mem_of_mem_take this)))
  unfold SameToken at hs
  cases h0 : mapOf a.r0 x with
  | none =>
    rw [h0] at hs
    cases h1 : mapOf a.r1 y with
    | none => rw [h1] at hs; exact Or.inl hs
    | some v => rw [h1] at hs; exact hs.elim
  | some u =>
    rw [h0] at hs
    have hj := h.just0 x u h0
    have direct : u = y → Alike L a.P0 x y := by
      rintro rfl
      rcases hj with hc | ⟨b0, _, b1, _, _, _, e⟩
      · exact Or.inr (Or.inl hc)
      · exact absurd (kp _) (e ▸ hy)
    cases h1 : mapOf a.r1 y with
    | none => rw [h1] at hs; exact direct hs
    | some v =>
      rw [h1] at hs
      dsimp only at hs
      rcases hs with e | ⟨e, _⟩
      · subst e
        rcases h.just1 y u h1 with e1 | ⟨c0, g0, c1, g1, g2, g3, g4⟩
        · rcases hj with hc | ⟨b0, k0, b1, k1, k2, k3, k4⟩
          · exact absurd (kp _) (e1 ▸ corrNul hc)
          · rw [e1] at k4
            have := List.append_cancel_right k4
            exact Or.inr (Or.inl ⟨b0, k0, b1, k1, k2, Or.inl ⟨k3, this⟩⟩)
        · rcases hj with hc | ⟨b0, k0, b1, k1, k2, k3, k4⟩
          · exact Or.inr (Or.inr ⟨u, hc, c0, g0, c1, g1, g2, Or.inl ⟨g4, g3⟩⟩)
          · rw [g4] at k4
            exact absurd (kp _) (k4 ▸ (hL.ok0 c0 g0).2.2)
      · exact direct e

theorem lines_mem {f : GFile} {b : GBlock} {l : Ln} (h : l ∈ f.lines b) : l ∈ f.ls := by
  unfold GFile.lines at h
  exact List.mem_of_mem_drop (List.mem_of_mem_take h)

/-- Blocks found the same by the comparison with renames are the same code. -/
theorem Inv.same {o : GenOpts} {L : GSt} {a : AnSt} (hL : LOk L) (h : Inv L a) {b0 b1 c0 c1 : GBlock}
    (h0 : b0 ∈ L.f0.bs) (h1 : b1 ∈ L.f1.bs) (e0 : c0 = b0.dec a.P0 noFlag noFlag) (e1 : c1 = b1.dec a.P1 a.I a.U)
    (hs : cblockSame o.os (a.st L).f0 (a.st L).f1 c0 c1 true true = true) : SameBlocks o L a.P0 b0 b1 := by
  subst e0
  subst e1
  unfold cblockSame at hs
  refine cmpLines_sound (c := cmpCtx o.os (a.st L).f0 (a.st L).f1 (b0.dec a.P0 noFlag noFlag) (b1.dec a.P1 a.I a.U) true true)
    h.ok0 h.ok1 (hL.ok0 b0 h0).1 (hL.ok1 b1 h1).1 (R := Alike L a.P0) (fun e => by cases e) _ _ _ (Nat.le_refl _) ?_ hs
  intro l0 hl0 l1 hl1 x hx y hy hxy
  exact h.alike hL (tokens_noNul (hL.nz0 l0 (lines_mem hl0)) hx) (tokens_noNul (hL.nz1 l1 (lines_mem hl1)) hy) hxy

end Verif
