import Verif.Props.Restore
/-
C03: several patches on one object.
-/
namespace Verif

/-- A patch that was applied: where, with which layout, header and image. -/
structure Applied where
  kpta : Nat
  l : Layout
  hdr : List Byte
  image : List Byte
  off : Nat
  ninfo : Nat

/-- its records -/
def Applied.infos (p : Applied) : List Info := parseInfos p.image p.off p.ninfo
/-- `x` belongs to the patch region -/
def Applied.inRegion (p : Applied) (x : Nat) : Prop := InRange x p.kpta p.l.totalMem

/-- `step m m' p`: applying the patch `p` succeeded and turned memory `m` into `m'`; nothing else wrote the
process. -/
def AppliedStep (a : Arch) (m m' : Mem) (p : Applied) : Prop :=
  ∃ (e : ApplyEnv) (ids : List (List Byte)) (file : List Byte) (v : ElfView),
    ApplyAssumptions a e file m v p.kpta p.image p.l ∧ v.infoOff = p.off ∧ v.ninfo = p.ninfo ∧
    e.page % 128 = 0 ∧ 0 < v.ninfo ∧ (∀ m, (e.safety m).1 = m) ∧
    (objectApply a e ids file m).2.2 = true ∧ m' = (objectApply a e ids file m).1 ∧
    p.hdr = storeLayout (file.take hdrSize) p.l

/-- The patch `p` was removed successfully by a later run of the tool. -/
def RemovedStep (a : Arch) (m m' : Mem) (p : Applied) : Prop :=
  ∃ eu : UnapplyEnv, UnapplyAssumptions a eu p.kpta p.l p.infos ∧ (∀ m, (eu.safety m).1 = m) ∧
    (objectUnapply a eu false ⟨p.kpta, some p.hdr, none, true⟩ m).2 = true ∧
    m' = (objectUnapply a eu false ⟨p.kpta, some p.hdr, none, true⟩ m).1

/-! ### Last in, first out -/

/-- Histories in which patches are removed in the reverse order: nothing, two histories one after the other,
or a history between applying a patch and removing it. -/
inductive Nested (a : Arch) : Mem → Mem → Prop
  | nil (m : Mem) : Nested a m m
  | append {m1 m2 m3 : Mem} : Nested a m1 m2 → Nested a m2 m3 → Nested a m1 m3
  | wrap {m0 m1 m2 m3 : Mem} (p : Applied) :
      AppliedStep a m0 m1 p → Nested a m1 m2 → RemovedStep a m2 m3 p → Nested a m0 m3

/-- C03, partial (last in, first out; any number of patches, also on the same functions): when all patches
are removed in the reverse order of their application, memory is exactly what it was.  Missing: other
orders when patches share a function, which is false (`C03_violated_first_in_first_out`); other orders for
patches that share none are `C03_disjoint_any_order_partial`. -/
theorem C03_reverse_order_partial {a : Arch} {m m' : Mem} (h : Nested a m m') : m' = m := by
  induction h with
  | nil => rfl
  | append _ _ h1 h2 => rw [h2, h1]
  | @wrap m0 m1 m2 m3 p hap _ hrem ih =>
    subst ih
    obtain ⟨e, ids, file, v, A, ho, hn, hpg, hpos, hq, hok, hm, hh⟩ := hap
    obtain ⟨eu, U, hq2, hok2, hm2⟩ := hrem
    subst hm
    rw [hm2]
    obtain ⟨P, -, -⟩ := objectApply_in_place A hok
    obtain ⟨-, -, -, f4, -⟩ := header_fields A
    have hhd := P.header
    rw [← hh] at hhd f4
    have hinf : p.infos = parseInfos p.image v.infoOff v.ninfo := by rw [Applied.infos, ← ho, ← hn]
    rw [hinf] at U
    exact C01_unpatch_restores_exactly A hok U hpg hpos p.hdr f4 hhd hq hq2 hok2

/-! ### Any order, for patches on different functions -/

/-- Two patches touch no common byte: their entries and regions are disjoint. -/
def NoOverlap (a : Arch) (p q : Applied) : Prop :=
  ∀ x, ¬ ((p.inRegion x ∨ IsEntryByte a p.infos x) ∧ (q.inRegion x ∨ IsEntryByte a q.infos x))

/-- Histories of applying and removing patches in any order, starting in `m0`; the list is what is applied.
A patch is applied only to functions that no other applied patch has replaced. -/
inductive History (a : Arch) (m0 : Mem) : List Applied → Mem → Prop
  | start : History a m0 [] m0
  | apply {ps : List Applied} {m m' : Mem} (p : Applied) : History a m0 ps m → AppliedStep a m m' p →
      (∀ q ∈ ps, ∀ i ∈ p.infos, i.isOld → ∀ x, InRange x i.daddr a.hunkSize → ¬ q.inRegion x ∧ ¬ IsEntryByte a q.infos x) →
      History a m0 (p :: ps) m'
  | remove {ps qs : List Applied} {m m' : Mem} (p : Applied) : History a m0 (ps ++ p :: qs) m →
      RemovedStep a m m' p → History a m0 (ps ++ qs) m'

/-- What holds after any such history. -/
structure StackInv (a : Arch) (m0 m : Mem) (ps : List Applied) : Prop where
  place : ∀ p ∈ ps, PatchInPlace a m0 m p.kpta p.l p.hdr p.image p.infos
  free : ∀ p ∈ ps, ∀ x, p.inRegion x → m0 x = none
  apart : ps.Pairwise (NoOverlap a)
  rest : ∀ x, (∀ p ∈ ps, ¬ p.inRegion x ∧ ¬ IsEntryByte a p.infos x) → m x = m0 x
  shape : ∀ p ∈ ps, ∃ e file v m1, ApplyAssumptions a e file m1 v p.kpta p.image p.l ∧ v.infoOff = p.off ∧ v.ninfo = p.ninfo ∧
      e.page % 128 = 0 ∧ 0 < v.ninfo ∧ p.hdr = storeLayout (file.take hdrSize) p.l

theorem place_of_same {a : Arch} {m0 m1 m2 : Mem} {p : Applied}
    (hs : ∃ e file v m1, ApplyAssumptions a e file m1 v p.kpta p.image p.l ∧ v.infoOff = p.off ∧ v.ninfo = p.ninfo ∧
      e.page % 128 = 0 ∧ 0 < v.ninfo ∧ p.hdr = storeLayout (file.take hdrSize) p.l)
    (P : PatchInPlace a m0 m1 p.kpta p.l p.hdr p.image p.infos)
    (h : ∀ x, p.inRegion x ∨ IsEntryByte a p.infos x → m2 x = m1 x) :
    PatchInPlace a m0 m2 p.kpta p.l p.hdr p.image p.infos := by
  obtain ⟨e, file, v, m3, A, ho, hn, -, -, hh⟩ := hs
  obtain ⟨f1, f2, f3, f4, f5, f6, f7⟩ := header_fields A
  refine undisturbed_in_place P h ?_ ?_ ?_
  · rw [hh]; omega
  · omega
  · rw [Applied.infos, parseInfos_length, ← hn]; exact f6

theorem history_inv {a : Arch} {m0 : Mem} {ps : List Applied} {m : Mem} (h : History a m0 ps m) :
    StackInv a m0 m ps := by
  induction h with
  | start => exact ⟨by simp, by simp, by simp, fun _ _ => rfl, by simp⟩
  | @apply ps m m' p _ hap hov ih =>
    obtain ⟨e, ids, file, v, A, ho, hn, hpg, hpos, hq, hok, hm, hh⟩ := hap
    obtain ⟨P, -, mw, hw1, hw2⟩ := objectApply_in_place A hok
    rw [← hm] at P hw2
    have hinf : p.infos = parseInfos p.image v.infoOff v.ninfo := by rw [Applied.infos, ← ho, ← hn]
    rw [← hinf] at P hw2
    have F := A.funcs
    rw [← hinf] at F
    have hav : EntriesAvoid a.hunkSize p.infos p.kpta p.l.totalMem := entriesAvoid_of_unmapped F A.free
    -- bytes of other patches are not touched
    have hfree : ∀ x, p.inRegion x → m x = none := by
      intro x hx
      have := A.free (x - p.kpta) (by simp only [Applied.inRegion, InRange] at hx; omega)
      simp only [Applied.inRegion, InRange] at hx
      rwa [show p.kpta + (x - p.kpta) = x by omega] at this
    have hother : ∀ q ∈ ps, ∀ x, q.inRegion x ∨ IsEntryByte a q.infos x → ¬ p.inRegion x ∧ ¬ IsEntryByte a p.infos x := by
      intro q hqm x hx
      constructor
      · intro hp
        have hnone := hfree x hp
        have Q := ih.place q hqm
        rcases hx with hx | hx
        · refine Q.mapped (x - q.kpta) (by simp only [Applied.inRegion, InRange] at hx; omega) ?_
          simp only [Applied.inRegion, InRange] at hx
          rwa [show q.kpta + (x - q.kpta) = x by omega]
        · obtain ⟨i, hi, hold, hr⟩ := hx
          obtain ⟨code, hc, hcode⟩ := Q.jumps i hi hold
          have hl := hunkCode_length a _ _ _ hc
          simp only [InRange] at hr
          have := hcode (x - i.daddr) (by omega)
          rw [show i.daddr + (x - i.daddr) = x by omega, hnone] at this
          simp at this
      · rintro ⟨i, hi, hold, hr⟩
        have := hov q hqm i hi hold x hr
        rcases hx with hx | hx
        · exact this.1 hx
        · exact this.2 hx
    have hm' : ∀ x, ¬ p.inRegion x → ¬ IsEntryByte a p.infos x → m' x = m x := by
      intro x h1 h2
      rw [hw2 x h1 h2, hq, hw1 x h1]
    have hm0 : ∀ x, p.inRegion x ∨ IsEntryByte a p.infos x → m x = m0 x := by
      intro x hx
      apply ih.rest
      intro q hqm
      constructor
      · intro hqx
        have := hother q hqm x (Or.inl hqx)
        rcases hx with h | h
        · exact this.1 h
        · exact this.2 h
      · intro hqx
        have := hother q hqm x (Or.inr hqx)
        rcases hx with h | h
        · exact this.1 h
        · exact this.2 h
    refine ⟨?_, ?_, ?_, ?_, ?_⟩
    · intro q hqm
      rcases List.mem_cons.mp hqm with rfl | hqm
      · rw [← hh] at P
        refine ⟨P.mapped, P.header, P.image, ?_, P.jumps⟩
        intro k hk hold j hj
        rw [P.saved k hk hold j hj]
        exact hm0 _ (Or.inr ⟨_, List.getElem_mem hk, hold, InRange.add hj⟩)
      · exact place_of_same (ih.shape q hqm) (ih.place q hqm)
          (fun x hx => hm' x (hother q hqm x hx).1 (hother q hqm x hx).2)
    · intro q hqm x hx
      rcases List.mem_cons.mp hqm with rfl | hqm
      · rw [← hm0 x (Or.inl hx)]
        exact hfree x hx
      · exact ih.free q hqm x hx
    · rw [List.pairwise_cons]
      refine ⟨?_, ih.apart⟩
      intro q hqm x hx
      have := hother q hqm x hx.2
      rcases hx.1 with h | h
      · exact this.1 h
      · exact this.2 h
    · intro x hx
      have h1 := hx p (by simp)
      rw [hm' x h1.1 h1.2]
      exact ih.rest x fun q hqm => hx q (by simp [hqm])
    · intro q hqm
      rcases List.mem_cons.mp hqm with rfl | hqm
      · exact ⟨e, file, v, m, A, ho, hn, hpg, hpos, hh⟩
      · exact ih.shape q hqm
  | @remove ps qs m m' p _ hrem ih =>
    obtain ⟨eu, U, hq2, hok2, hm2⟩ := hrem
    have hp : p ∈ ps ++ p :: qs := by simp
    have P := ih.place p hp
    obtain ⟨e, file, v, m3, A, ho, hn, hpg, hpos, hh⟩ := ih.shape p hp
    obtain ⟨f1, f2, f3, f4, f5, f6, f7⟩ := header_fields A
    have hinf : p.infos = parseInfos p.image v.infoOff v.ninfo := by rw [Applied.infos, ← ho, ← hn]
    have F := A.funcs
    have hpg0 : 0 < e.page := by have := A.page; omega
    have hsl := layout_slack a e.page v.undef p.image.length v.infoOff v.ninfo hpg0 hpg hpos
      (by rw [← A.layout]; exact A.mem32) (by have := A.table.fits; omega)
    rw [← A.layout] at hsl
    rw [hinf] at P U
    rw [← hh] at f1 f2 f3
    have hfind := findInfos_in_place P A.table U f1 (by omega)
    obtain ⟨r1, r2, r3⟩ := objectUnapply_in_place P U hfind f2 f3 (entriesDisjoint_of_funcs F)
      (entriesAvoid_of_unmapped F A.free) f6 hok2
    rw [← hm2, ← hinf] at r1 r3
    rw [← hm2] at r2
    have hap := ih.apart
    rw [List.pairwise_append, List.pairwise_cons] at hap
    obtain ⟨u1, ⟨u2, u3⟩, u4⟩ := hap
    have hsub : ∀ q ∈ ps ++ qs, q ∈ ps ++ p :: qs := by
      intro q hq; simp only [List.mem_append, List.mem_cons] at hq ⊢; tauto
    have hother : ∀ q ∈ ps ++ qs, ∀ x, q.inRegion x ∨ IsEntryByte a q.infos x → ¬ p.inRegion x ∧ ¬ IsEntryByte a p.infos x := by
      intro q hqm x hx
      rcases List.mem_append.mp hqm with hqm | hqm
      · have := u4 q hqm p (by simp) x
        exact ⟨fun h => this ⟨hx, Or.inl h⟩, fun h => this ⟨hx, Or.inr h⟩⟩
      · have := u2 q hqm x
        exact ⟨fun h => this ⟨Or.inl h, hx⟩, fun h => this ⟨Or.inr h, hx⟩⟩
    refine ⟨?_, fun q hq => ih.free q (hsub q hq), ?_, ?_, fun q hq => ih.shape q (hsub q hq)⟩
    · intro q hqm
      refine place_of_same (ih.shape q (hsub q hqm)) (ih.place q (hsub q hqm)) fun x hx => ?_
      have := hother q hqm x hx
      rw [r3 x this.1 this.2, hq2]
    · rw [List.pairwise_append]
      exact ⟨u1, u3, fun x hx y hy => u4 x hx y (by simp [hy])⟩
    · intro x hx
      by_cases h1 : p.inRegion x
      · rw [r2 x h1, ih.free p hp x h1]
      · by_cases h2 : IsEntryByte a p.infos x
        · exact r1 x h2
        · rw [r3 x h1 h2, hq2]
          apply ih.rest
          intro q hqm
          simp only [List.mem_append, List.mem_cons] at hqm
          rcases hqm with hqm | rfl | hqm
          · exact hx q (by simp [hqm])
          · exact ⟨h1, h2⟩
          · exact hx q (by simp [hqm])

/-- C03, partial (patches that replace different functions; any number, applied and removed in any order): when
none is left, memory is exactly what it was before the first. -/
theorem C03_disjoint_any_order_partial {a : Arch} {m0 m : Mem} (h : History a m0 [] m) : m = m0 := by
  funext x
  exact (history_inv h).rest x (by simp)

/-! ### The two remaining orders, on concrete memory -/

namespace ExStack
open ExRestore

/-- A second patch of the same function, placed at 0x30000. -/
def image2 : List Byte :=
  leBytes 8 0x1000 ++ leBytes 8 0x30200 ++ leBytes 4 16 ++ leBytes 4 32 ++ leBytes 24 0 ++ leBytes 24 0
def env2 : ApplyEnv := { applyEnv with region := some 0x30000, image := some image2 }
def file2 : List Byte := setField file 8 1 0x31
def L : Layout := ⟨none, 4096, 4096, 4224, 8192⟩
def hdr1 : List Byte := storeLayout (file.take hdrSize) L
def hdr2 : List Byte := storeLayout (file2.take hdrSize) L
/-- first patch applied -/
def m1 : Mem := (objectApply .x86 applyEnv [] file mem).1
/-- second patch applied on top -/
def m2 : Mem := (objectApply .x86 env2 [[]] file2 m1).1
/-- the first one removed -/
def m3 : Mem := (objectUnapply .x86 unapplyEnv false ⟨0x20000, some hdr1, none, true⟩ m2).1
/-- the second one removed -/
def m4 : Mem := (objectUnapply .x86 unapplyEnv false ⟨0x30000, some hdr2, none, true⟩ m3).1

def p1 : Applied := ⟨0x20000, L, hdr1, image, 0, 1⟩
def p2 : Applied := ⟨0x30000, L, hdr2, image2, 0, 1⟩
/-- the other order: the second one removed first -/
def m3' : Mem := (objectUnapply .x86 unapplyEnv false ⟨0x30000, some hdr2, none, true⟩ m2).1
def m4' : Mem := (objectUnapply .x86 unapplyEnv false ⟨0x20000, some hdr1, none, true⟩ m3').1

theorem infos2_eq : parseInfos image2 0 1 = [⟨0x1000, 0x30200, 16, 32, false⟩] := by decide

theorem step1 : AppliedStep .x86 mem m1 p1 :=
  ⟨applyEnv, [], file, ⟨0, 1, 0⟩, applyOk, rfl, rfl, by decide, by decide, fun _ => rfl, apply_true, rfl, rfl⟩

theorem m1_outside (x : Nat) (h1 : ¬ InRange x 0x20000 8192) (h2 : ¬ InRange x 0x1000 5) : m1 x = mem x := by
  obtain ⟨-, -, mw, hw1, hw2⟩ := objectApply_in_place applyOk apply_true
  have := hw2 x h1 (by
    rintro ⟨i, hi, -, hr⟩
    have hi' : i ∈ parseInfos image 0 1 := hi
    rw [infos_eq] at hi'
    simp only [List.mem_singleton] at hi'
    subst hi'
    exact h2 hr)
  rw [show m1 x = (objectApply .x86 applyEnv [] file mem).1 x from rfl, this]
  exact hw1 x h1

theorem m1_code : Mapped m1 0x1000 16 := by
  intro k hk
  by_cases h5 : k < 5
  · have : ∀ k, k < 5 → m1 (0x1000 + k) ≠ none := by decide +kernel
    exact this k h5
  · rw [m1_outside _ (by simp only [InRange]; omega) (by simp only [InRange]; omega)]
    simp only [mem]
    rw [if_pos (by omega)]
    simp

theorem step2 : AppliedStep .x86 m1 m2 p2 := by
  refine ⟨env2, [[]], file2, ⟨0, 1, 0⟩, ?_, rfl, rfl, by decide, by decide, fun _ => rfl, by decide +kernel, rfl, rfl⟩
  exact {
    view := rfl
    region := rfl
    relocated := fun _ h => (Option.some.inj h).symm
    layout := by show L = _; rw [L, ← total_eq]; rfl
    fileLen := by decide +kernel
    page := by decide
    size := by decide +kernel
    mem32 := by decide
    table := ⟨by decide, by show ∀ i ∈ parseInfos image2 0 1, _; rw [infos2_eq]; decide,
      by show ∀ i ∈ parseInfos image2 0 1, _; rw [infos2_eq]; decide, by decide⟩
    free := by
      intro k hk
      simp only [p2, L] at hk ⊢
      rw [m1_outside _ (by simp only [InRange]; omega) (by simp only [InRange]; omega)]
      simp only [mem]
      rw [if_neg (by omega)]
    funcs := by
      show FunctionsOk .x86 m1 (parseInfos image2 0 1)
      rw [infos2_eq]
      refine ⟨by simp [Arch.hunkSize], by simp, ?_⟩
      intro i hi _ k hk
      simp only [List.mem_singleton] at hi
      subst hi
      exact m1_code k hk
    wait := fun _ _ _ => rfl }

/-- The hypotheses of `C03_reverse_order_partial` are met: two patches of one function, removed in reverse. -/
example : Nested .x86 mem m4' := by
  refine .wrap p1 step1 (.wrap p2 step2 (.nil _) (m3 := m3') ?_) ?_
  · refine ⟨unapplyEnv, ⟨by decide, fun _ => ⟨4096, by decide, rfl⟩, by decide, by decide, fun _ _ _ => rfl⟩,
      fun _ => rfl, by decide +kernel, rfl⟩
  · refine ⟨unapplyEnv, ⟨by decide, fun _ => ⟨4096, by decide, rfl⟩, by decide, by decide, fun _ _ _ => rfl⟩,
      fun _ => rfl, by decide +kernel, rfl⟩

/-- The hypotheses of `C03_disjoint_any_order_partial` are met by a single patch applied and removed. -/
example : History .x86 mem [] (objectUnapply .x86 unapplyEnv false ⟨0x20000, some hdr1, none, true⟩ m1).1 := by
  refine History.remove (ps := []) (qs := []) p1 (History.apply p1 .start step1 (by simp)) ?_
  refine ⟨unapplyEnv, ⟨by decide, fun _ => ⟨4096, by decide, rfl⟩, by decide, by decide, fun _ _ _ => rfl⟩,
      fun _ => rfl, by decide +kernel, rfl⟩

end ExStack

open ExStack ExRestore in
/-- C03 is false for patches of the same function that are not removed in the reverse order: both removals
report success, no patch is left, but the entry of the function (0x1000) is the jump into the first patch,
whose memory is gone. -/
theorem C03_violated_first_in_first_out :
    (objectApply .x86 applyEnv [] file mem).2.2 = true ∧
    (objectApply .x86 env2 [[]] file2 m1).2.2 = true ∧
    (objectUnapply .x86 unapplyEnv false ⟨0x20000, some hdr1, none, true⟩ m2).2 = true ∧
    (objectUnapply .x86 unapplyEnv false ⟨0x30000, some hdr2, none, true⟩ m3).2 = true ∧
    mem 0x1000 = some 0 ∧ m4 0x1000 = some 0xe9 ∧ m4 0x20200 = none ∧ m4 0x20000 = none := by
  decide +kernel

end Verif
