import Verif.Spec.AddrBias
/-
C70: on RISC-V and LoongArch, symbols of functions of the original program get the place they have in the original.
-/
namespace Verif

theorem biasGo_each {orig patch : FixObj} : ∀ {ss out : List FixSym}, biasGo orig patch ss = some out →
    out.length = ss.length ∧ ∀ (i : Nat) (s : FixSym), ss[i]? = some s → ∃ s', out[i]? = some s' ∧ biasOne orig patch s = some s' := by
  intro ss
  induction ss with
  | nil => intro out h; simp [biasGo] at h; subst h; simp
  | cons s ss ih =>
    intro out h
    unfold biasGo at h
    split at h
    · exact absurd h (by simp)
    next s1 h1 =>
      obtain ⟨o2, h2, rfl⟩ := Option.map_eq_some_iff.1 h
      obtain ⟨l, e⟩ := ih h2
      refine ⟨by simp [l], ?_⟩
      intro i q hi
      cases i with
      | zero => simp at hi; subst hi; exact ⟨s1, by simp, h1⟩
      | succ i =>
        simp at hi
        obtain ⟨s', a, b⟩ := e i q hi
        exact ⟨s', by simpa using a, b⟩

/-- C70: only the values of functions of the program change; such a function gets the offset that a function of the
original with the same name, type and binding has in its section there.  So it is the right one when only one symbol of
the original has this name, type and binding; otherwise it need not be (`C70_violated_static`).  Functions that are not
in the original stay as they are. -/
theorem C70_offsets_partial {orig patch : FixObj} {syms : List FixSym} (h : fixupAddrBias orig patch = some syms) :
    syms.length = patch.syms.length ∧
    ∀ (i : Nat) (s : FixSym), patch.syms[i]? = some s → ∃ s', syms[i]? = some s' ∧
      s' = { s with sym := { s.sym with value := s'.sym.value } } ∧
      (i = 0 ∨ ¬ ProgramFunction patch s → s' = s) ∧
      (i ≠ 0 → ProgramFunction patch s →
        ((∃ j o, j ≠ 0 ∧ orig.syms[j]? = some o ∧ Namesake o s ∧ offsetIn orig o = some s'.sym.value) ∨
          ((∀ j o, j ≠ 0 → orig.syms[j]? = some o → ¬ Namesake o s) ∧ s' = s)) ∧
        ∀ j o, j ≠ 0 → orig.syms[j]? = some o → Namesake o s →
          (∀ k q, k ≠ 0 → orig.syms[k]? = some q → Namesake q s → q = o) → offsetIn orig o = some s'.sym.value) := by
  unfold fixupAddrBias at h
  split at h
  next hn => simp only [Option.some.injEq] at h; subst h; rw [hn]; simp
  next s0 ss hn =>
  obtain ⟨out, ho, rfl⟩ := Option.map_eq_some_iff.1 h
  obtain ⟨l, e⟩ := biasGo_each ho
  rw [hn]
  refine ⟨by simp [l], ?_⟩
  intro i s hi
  cases i with
  | zero =>
    simp at hi
    subst hi
    exact ⟨s0, by simp, rfl, fun _ => rfl, fun a => absurd rfl a⟩
  | succ i =>
    simp at hi
    obtain ⟨s', a, b⟩ := e i s hi
    refine ⟨s', by simpa using a, ?_⟩
    unfold biasOne at b
    split at b
    next hc =>
      simp only [Option.some.injEq] at b
      subst b
      refine ⟨rfl, fun _ => rfl, fun _ hp => ?_⟩
      rcases hc with hc | hc
      · exact absurd hc hp.1
      · exact absurd hp.2.1 hc
    next hc =>
    split at b
    · exact absurd b (by simp)
    next sec hsec =>
    split at b
    next hk =>
      simp only [Option.some.injEq] at b
      subst b
      refine ⟨rfl, fun _ => rfl, fun _ hp => ?_⟩
      obtain ⟨_, _, sec', e1, e2⟩ := hp
      rw [hsec] at e1
      cases e1
      exact absurd (List.isPrefixOf_iff_prefix.1 hk) e2
    next hk =>
    have hpf : ProgramFunction patch s := by
      refine ⟨fun x => hc (Or.inl x), Decidable.not_not.1 fun x => hc (Or.inr x), sec, hsec, ?_⟩
      intro hx
      exact hk (List.isPrefixOf_iff_prefix.2 hx)
    have memDrop : ∀ j (o : FixSym), j ≠ 0 → orig.syms[j]? = some o → o ∈ orig.syms.drop 1 := by
      intro j o hj ho
      have : (orig.syms.drop 1)[j - 1]? = some o := by
        rw [List.getElem?_drop, show 1 + (j - 1) = j by omega]; exact ho
      exact List.mem_of_getElem? this
    split at b
    next hf =>
      simp only [Option.some.injEq] at b
      subst b
      have none : ∀ j o, j ≠ 0 → orig.syms[j]? = some o → ¬ Namesake o s := by
        intro j o hj ho hns
        unfold biasFind at hf
        have := List.find?_eq_none.1 hf o (memDrop j o hj ho)
        simp [hns.1, hns.2.1, hns.2.2] at this
      refine ⟨rfl, fun x => rfl, fun _ _ => ⟨Or.inr ⟨none, rfl⟩, ?_⟩⟩
      intro j o hj ho hns
      exact absurd hns (none j o hj ho)
    next o hf =>
      have hmem : o ∈ orig.syms.drop 1 := List.mem_of_find?_eq_some hf
      obtain ⟨j, hj⟩ := List.getElem?_of_mem hmem
      rw [List.getElem?_drop] at hj
      have hns : Namesake o s := by
        have := List.find?_some hf
        simp only [Bool.and_eq_true, beq_iff_eq] at this
        exact ⟨this.1.1, this.1.2, this.2⟩
      split at b
      · exact absurd b (by simp)
      next osec hos =>
      have hval : s'.sym.value = o.sym.value - osec.addr ∧ s' = { s with sym := { s.sym with value := s'.sym.value } } := by
        split at b
        · simp only [Option.some.injEq] at b
          subst b
          exact ⟨rfl, rfl⟩
        next hv =>
          simp only [Option.some.injEq] at b
          subst b
          exact ⟨Decidable.not_not.1 hv, rfl⟩
      have hoff : offsetIn orig o = some s'.sym.value := by
        unfold offsetIn
        rw [hos, hval.1]; rfl
      refine ⟨hval.2, ?_, fun _ _ => ⟨Or.inl ⟨1 + j, o, by omega, hj, hns, hoff⟩, ?_⟩⟩
      · rintro (x | x)
        · simp at x
        · exact absurd hpf x
      · intro k q hk hq hqs huniq
        have : o = q := huniq (1 + j) o (by omega) hj hns
        rw [← this]
        exact hoff

namespace ExBias

/-- The original: `f` at 0x40 and two static functions `helper` of different files in the section at 0x1000. -/
def orig : FixObj where
  secs := [⟨[], 0⟩, ⟨lit ".text", 0x1000⟩]
  syms := [⟨[], ⟨0, 0, 0, .notype, .loc⟩⟩, ⟨lit "helper", ⟨0x1010, 8, 1, .func, .loc⟩⟩,
    ⟨lit "helper", ⟨0x1020, 8, 1, .func, .loc⟩⟩, ⟨lit "f", ⟨0x1040, 8, 1, .func, .glob⟩⟩]

/-- The patch, already section-relative: the linker put `f` four bytes later; `g.kpatch` is its own. -/
def patch : FixObj where
  secs := [⟨[], 0⟩, ⟨lit ".text", 0x1000⟩, ⟨lit ".kpatch.text", 0x2000⟩]
  syms := [⟨[], ⟨0, 0, 0, .notype, .loc⟩⟩, ⟨lit "helper", ⟨0x10, 8, 1, .func, .loc⟩⟩,
    ⟨lit "helper", ⟨0x20, 8, 1, .func, .loc⟩⟩, ⟨lit "f", ⟨0x44, 8, 1, .func, .glob⟩⟩, ⟨lit "g.kpatch", ⟨0, 8, 2, .func, .glob⟩⟩]

theorem fixed : fixupAddrBias orig patch = some (patch.syms.set 3 ⟨lit "f", ⟨0x40, 8, 1, .func, .glob⟩⟩ |>.set 2
    ⟨lit "helper", ⟨0x10, 8, 1, .func, .loc⟩⟩) := by decide +kernel

/-- `f` is a function of the program and there is one `f` in the original. -/
example : ProgramFunction patch ⟨lit "f", ⟨0x44, 8, 1, .func, .glob⟩⟩ ∧
    offsetIn orig ⟨lit "f", ⟨0x1040, 8, 1, .func, .glob⟩⟩ = some 0x40#64 := by
  refine ⟨⟨by decide, rfl, ⟨lit ".text", 0x1000⟩, by decide +kernel, ?_⟩, by decide +kernel⟩
  intro h
  exact absurd (List.isPrefixOf_iff_prefix.2 h) (by decide +kernel)

end ExBias

/-- C70 is false for static functions of the same name: the second `helper`, which is at 0x20 in the patch as in the
original, is moved to the first one, at 0x10; calls to it from the patch then reach the other function. -/
theorem C70_violated_static :
    ((fixupAddrBias ExBias.orig ExBias.patch).bind (·[2]?)).map (·.sym.value) = some 0x10#64 ∧
    (ExBias.patch.syms[2]?).map (·.sym.value) = some 0x20#64 ∧
    (ExBias.orig.syms[2]?).bind (offsetIn ExBias.orig) = some 0x20#64 := by
  decide +kernel

/-- C70 is false when the function is in another section in the original: here the original has `f` in `.text.hot` at
offset 0x8, the patch in `.text` at offset 0x44, and afterwards it is taken to be at offset 0x8 of `.text`. -/
theorem C70_violated_section :
    let o : FixObj := { ExBias.orig with
      secs := ExBias.orig.secs ++ [⟨lit ".text.hot", 0x3000⟩]
      syms := ExBias.orig.syms.set 3 ⟨lit "f", ⟨0x3008, 8, 2, .func, .glob⟩⟩ }
    ((fixupAddrBias o ExBias.patch).bind (·[3]?)).map (·.sym) = some ⟨0x8, 8, 1, .func, .glob⟩ ∧
    (ExBias.patch.secs[1]?).map (·.name) = some (lit ".text") := by
  decide +kernel

end Verif
