import Verif.Proof.GenPasses
import Verif.Proof.SameCode
/-
The rename tables of the two files as maps of names.
-/
namespace Verif

variable [AsmTarget]

/-- The map of the renames of a file. -/
def mapOf (t : Renames) : NameMap := fun nm => (t.search fun r => kpstrcmp (kpz r.src) (kpz nm)).map Rename.dst

theorem mapOf_eq {t : Renames} {m : NameMap} (h : RenRep t m) : mapOf t = m := funext h.map

/-- The table is a sound tree. -/
def RenOk (t : Renames) : Prop := RenRep t (mapOf t)

theorem renOk_of {t : Renames} {m : NameMap} (h : RenRep t m) : RenOk t := by
  unfold RenOk
  rw [mapOf_eq h]
  exact h

theorem renOk_nil : RenOk .nil := renOk_of renRep_nil

theorem mapOf_nil : mapOf .nil = fun _ => none := mapOf_eq renRep_nil

/-- After an addition. -/
theorem renameAdd_map {t t' : Renames} {src dst : Kpstr} (h : RenOk t) (hs : src.Ok) (hd : dst.Ok)
    (ha : renameAdd t src dst = some t') : RenOk t' ∧
      (∀ a x, mapOf t' a = some x → mapOf t a = some x ∨ (a = src.text ∧ x = dst.text)) ∧
      (∀ a x, mapOf t a = some x → mapOf t' a = some x) ∧
      (src.text ≠ dst.text → mapOf t' src.text = some dst.text) := by
  rcases renRep_step h (.add src dst) ⟨hs, hd⟩ with ⟨_, h2⟩ | ⟨m', t2, h1, h2, h3⟩
  · rw [show (RenOp.add src dst).run t = renameAdd t src dst from rfl, ha] at h2; cases h2
  · rw [show (RenOp.add src dst).run t = renameAdd t src dst from rfl, ha] at h2
    cases h2
    refine ⟨renOk_of h3, ?_⟩
    rw [mapOf_eq h3]
    simp only [RenOp.spec] at h1
    split at h1
    · rename_i he
      cases h1
      exact ⟨fun a x h => Or.inl h, fun a x h => h, fun hne => absurd he hne⟩
    · split at h1
      · rename_i d hd'
        split at h1
        · rename_i he
          cases h1
          exact ⟨fun a x h => Or.inl h, fun a x h => h, fun _ => by rw [hd', he]⟩
        · cases h1
      · rename_i hn
        cases h1
        refine ⟨fun a x h => ?_, fun a x h => ?_, fun _ => by simp⟩
        · dsimp only at h
          split at h
          · rename_i e
            cases h
            exact Or.inr ⟨e, rfl⟩
          · exact Or.inl h
        · dsimp only
          split
          · rename_i e
            rw [e, hn] at h
            cases h
          · exact h

/-- After a deletion. -/
theorem renameDel_map {t t' : Renames} {src : Kpstr} (h : RenOk t) (hs : src.Ok) (ha : renameDel t src = some t') :
    RenOk t' ∧ ∀ a, mapOf t' a = if a = src.text then none else mapOf t a := by
  rcases renRep_step h (.del src) hs with ⟨_, h2⟩ | ⟨m', t2, h1, h2, h3⟩
  · rw [show (RenOp.del src).run t = renameDel t src from rfl, ha] at h2; cases h2
  · rw [show (RenOp.del src).run t = renameDel t src from rfl, ha] at h2
    cases h2
    refine ⟨renOk_of h3, ?_⟩
    rw [mapOf_eq h3]
    simp only [RenOp.spec, Option.some.injEq] at h1
    intro a
    rw [← h1]

theorem renFind_mapOf {t : Renames} (h : RenOk t) {nm : Kpstr} (ho : nm.Ok) : (renameFind t nm).map Rename.dst = mapOf t nm.text :=
  renFind_map h nm ho

/-- A deletion of a name succeeds. -/
theorem renameDel_some {t : Renames} {src : Kpstr} (h : RenOk t) (hs : src.Ok) : ∃ t', renameDel t src = some t' := by
  rcases renRep_step h (.del src) hs with ⟨h1, _⟩ | ⟨m', t2, h1, h2, h3⟩
  · cases h1
  · exact ⟨t2, h2⟩

end Verif
