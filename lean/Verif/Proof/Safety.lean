import Verif.Spec.Safety
import Verif.Proof.Patch
/-
Lemmas about the stack checks.
-/
namespace Verif

theorem hitInfo_none {d : Direction} {infos : List Info} {ip : Nat} :
    hitInfo d infos ip = none ↔ ¬ Busy d infos ip := by
  unfold hitInfo
  rw [List.find?_eq_none]
  constructor
  · intro h hb
    cases d <;> simp only [Busy, InReplaced, InReplacement] at hb <;> obtain ⟨i, hi, ho, hr⟩ := hb <;>
    · apply h i hi
      have hn : i.isNew = false := by
        simp only [Info.isOld] at ho
        simp only [Info.isNew, Bool.and_eq_false_iff, beq_eq_false_iff_ne]
        omega
      simp only [InRange] at hr
      simp [hn, addrInInfo, hr.1, hr.2]
  · intro h i hi hc
    apply h
    simp only [Bool.and_eq_true, Bool.not_eq_true'] at hc
    obtain ⟨hn, hc⟩ := hc
    have ho : i.isOld := by
      simp only [Info.isOld]
      simp only [Info.isNew, Bool.and_eq_false_iff, beq_eq_false_iff_ne] at hn
      omega
    cases d <;> simp only [addrInInfo, Bool.and_eq_true, decide_eq_true_eq] at hc <;> exact ⟨i, hi, ho, hc⟩

theorem hitInfo_some {d : Direction} {infos : List Info} {ip : Nat} {i : Info}
    (h : hitInfo d infos ip = some i) : Busy d infos ip ∧ i ∈ infos ∧ i.isOld := by
  refine ⟨?_, List.mem_of_find?_eq_some h, ?_⟩
  · apply Classical.byContradiction
    intro hb
    rw [hitInfo_none.mpr hb] at h
    simp at h
  · have := List.find?_some h
    simp only [Bool.and_eq_true, Bool.not_eq_true'] at this
    have hn := this.1
    simp only [Info.isOld]
    simp only [Info.isNew, Bool.and_eq_false_iff, beq_eq_false_iff_ne] at hn
    omega

/-- Once `last` is set it stays set. -/
theorem verifySingle_last {d : Direction} {infos : List Info} (hz : NoNullCode d infos) :
    ∀ (fs : List Nat) (prev : Bool) (last retip : Nat), last ≠ 0 → (verifySingle d infos prev last retip fs).1 ≠ 0 := by
  intro fs
  induction fs with
  | nil => intro prev last retip h; exact h
  | cons ip fs ih =>
    intro prev last retip h
    unfold verifySingle
    cases hh : hitInfo d infos ip with
    | some i =>
      obtain ⟨-, h2, h3⟩ := hitInfo_some hh
      exact ih _ _ _ (hz i h2 h3)
    | none =>
      dsimp only
      split
      · exact h
      · exact ih _ _ _ h

/-- The check of one stack returns 0 exactly when no frame is in the code. -/
theorem verifySingle_zero {d : Direction} {infos : List Info} (hz : NoNullCode d infos) :
    ∀ (fs : List Nat) (retip : Nat),
      (verifySingle d infos false 0 retip fs).1 = 0 ↔ ∀ ip ∈ fs, ¬ Busy d infos ip := by
  intro fs
  induction fs with
  | nil => intro retip; simp [verifySingle]
  | cons ip fs ih =>
    intro retip
    unfold verifySingle
    cases hh : hitInfo d infos ip with
    | some i =>
      obtain ⟨h1, h2, h3⟩ := hitInfo_some hh
      constructor
      · intro h
        exact absurd h (verifySingle_last hz fs true _ retip (hz i h2 h3))
      · intro h
        exact absurd h1 (h ip (by simp))
    | none =>
      simp only [Bool.false_eq_true, if_false]
      rw [ih retip]
      have := hitInfo_none.mp hh
      simp [this]

theorem verifyCoros_zero {d : Direction} {infos : List Info} (hz : NoNullCode d infos) (cs : List (Option (List Nat))) :
    verifyCoros d infos cs = some 0 ↔ ∀ s ∈ cs, ∃ fs, s = some fs ∧ ∀ ip ∈ fs, ¬ Busy d infos ip := by
  induction cs with
  | nil => simp [verifyCoros]
  | cons c cs ih =>
    cases c with
    | none => simp [verifyCoros]
    | some fs =>
      unfold verifyCoros
      have key := verifySingle_zero hz fs 0
      cases hc : verifyCoros d infos cs with
      | none =>
        simp only [hc] at ih
        constructor
        · intro h; simp at h
        · intro h
          exact absurd (ih.mpr fun s hs => h s (by simp [hs])) (by simp)
      | some n =>
        simp only [hc] at ih
        constructor
        · intro h
          simp only [Option.some.injEq] at h
          split at h
          · omega
          · rename_i hv
            have hv' : (verifySingle d infos false 0 0 fs).1 = 0 := by simpa using hv
            subst h
            intro s hs
            rcases List.mem_cons.mp hs with rfl | hs
            · exact ⟨fs, rfl, key.mp hv'⟩
            · exact ih.mp rfl s hs
        · intro h
          obtain ⟨fs', he, hfs⟩ := h (some fs) (by simp)
          have hv : (verifySingle d infos false 0 0 fs).1 = 0 := key.mpr (by
            injection he with he; rw [he]; exact hfs)
          rw [hv]
          simp only [ne_eq, not_true_eq_false, if_false]
          exact ih.mpr fun s hs => h s (by simp [hs])

theorem verifyThreads_zero {d : Direction} {infos : List Info} (hz : NoNullCode d infos) (ts : List (Option (List Nat))) :
    ∀ retip, (∃ rs, verifyThreads d infos retip ts = some (0, rs)) ↔
      ∀ s ∈ ts, ∃ fs, s = some fs ∧ ∀ ip ∈ fs, ¬ Busy d infos ip := by
  induction ts with
  | nil => intro retip; simp [verifyThreads]
  | cons c ts ih =>
    intro retip
    cases c with
    | none => simp [verifyThreads]
    | some fs =>
      unfold verifyThreads
      have key := verifySingle_zero hz fs retip
      dsimp only
      have ih' := ih (verifySingle d infos false 0 retip fs).2
      cases hc : verifyThreads d infos (verifySingle d infos false 0 retip fs).2 ts with
      | none =>
        simp only [hc] at ih'
        constructor
        · intro ⟨rs, h⟩; simp at h
        · intro h
          obtain ⟨rs, hrs⟩ := ih'.mpr fun s hs => h s (by simp [hs])
          simp at hrs
      | some p =>
        obtain ⟨n, rs⟩ := p
        simp only [hc] at ih'
        constructor
        · rintro ⟨rs', h⟩
          simp only [Option.some.injEq] at h
          split at h
          · simp at h
          · rename_i hv
            have hv' : (verifySingle d infos false 0 retip fs).1 = 0 := by simpa using hv
            simp only [Prod.mk.injEq] at h
            obtain ⟨h1, -⟩ := h
            subst h1
            intro s hs
            rcases List.mem_cons.mp hs with rfl | hs
            · exact ⟨fs, rfl, key.mp hv'⟩
            · exact ih'.mp ⟨rs, rfl⟩ s hs
        · intro h
          obtain ⟨fs', he, hfs⟩ := h (some fs) (by simp)
          have hv : (verifySingle d infos false 0 retip fs).1 = 0 := key.mpr (by
            injection he with he; rw [he]; exact hfs)
          rw [hv]
          simp only [ne_eq, not_true_eq_false, if_false]
          obtain ⟨rs', hrs⟩ := ih'.mpr fun s hs => h s (by simp [hs])
          simp only [Option.some.injEq, Prod.mk.injEq] at hrs
          exact ⟨0 :: rs, by rw [hrs.1]⟩

/-- The check says "safe" exactly when no frame of any stack is in the code. -/
theorem verifySafety_zero {d : Direction} {infos : List Info} (hz : NoNullCode d infos) (g : Nat) (l : Look) :
    (verifySafety d infos g l).1 = .failed 0 ↔ LookClear (Busy d infos) l := by
  unfold verifySafety LookClear
  have hc := verifyCoros_zero hz l.coros
  have ht := verifyThreads_zero hz l.threads g
  cases h1 : verifyCoros d infos l.coros with
  | none =>
    rw [h1] at hc
    constructor
    · intro h; simp at h
    · intro h
      exact absurd (hc.mpr fun s hs => h s (by simp [hs])) (by simp)
  | some n =>
    cases n with
    | succ n =>
      rw [h1] at hc
      constructor
      · intro h; simp at h
      · intro h
        exact absurd (hc.mpr fun s hs => h s (by simp [hs])) (by simp)
    | zero =>
      rw [h1] at hc
      have hc' := hc.mp rfl
      cases h2 : verifyThreads d infos g l.threads with
      | none =>
        rw [h2] at ht
        constructor
        · intro h; simp at h
        · intro h
          obtain ⟨rs, hrs⟩ := ht.mpr fun s hs => h s (by simp [hs])
          simp at hrs
      | some p =>
        obtain ⟨n, rs⟩ := p
        rw [h2] at ht
        constructor
        · intro h
          simp only [Verdict.failed.injEq] at h
          subst h
          have ht' := ht.mp ⟨rs, rfl⟩
          intro s hs
          rcases List.mem_append.mp hs with hs | hs
          · exact hc' s hs
          · exact ht' s hs
        · intro h
          obtain ⟨rs', hrs⟩ := ht.mpr fun s hs => h s (by simp [hs])
          simp only [Option.some.injEq, Prod.mk.injEq] at hrs
          rw [hrs.1]

/-- What "safe" means for the whole wait. -/
theorem ensureSafety_ok {d : Direction} {infos : List Info} (hz : NoNullCode d infos) (e : SafetyEnv) (m : Mem)
    (h : (ensureSafety d infos e m).2 = true) :
    (LookClear (Busy d infos) e.first ∧ (ensureSafety d infos e m).1 = m) ∨
    (¬ LookClear (Busy d infos) e.first ∧ LookClear (Busy d infos) e.second ∧
      ∃ retips, (e.wait retips m).2 = true ∧ e.attachOk = true ∧ (ensureSafety d infos e m).1 = (e.wait retips m).1) := by
  have hf := verifySafety_zero hz e.garbage e.first
  have hs := verifySafety_zero hz e.garbage e.second
  unfold ensureSafety at *
  split at h
  · simp at h
  rename_i hm
  rw [if_neg hm]
  generalize verifySafety d infos e.garbage e.first = v at *
  obtain ⟨v, retips⟩ := v
  match v with
  | .failed 0 => exact Or.inl ⟨hf.mp rfl, rfl⟩
  | .failed (n + 1) =>
    right
    refine ⟨fun hc => by have := hf.mpr hc; simp at this, ?_⟩
    dsimp only at h ⊢
    split at h
    · simp at h
    split at h
    · simp at h
    rename_i h1 h2
    rw [if_neg h1, if_neg h2]
    refine ⟨hs.mp (by simpa using h), retips, by simpa using h1, by simpa using h2, rfl⟩
  | .error => simp at h
  | .coroUnsafe => simp at h

end Verif
