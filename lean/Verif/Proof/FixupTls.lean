import Verif.Spec.FixupTls
import Verif.Proof.Fixup
/-
Lemmas for C74.
-/
namespace Verif
open Cpu

/-- Symbols that lose their definition when a relocation refers to them. -/
def hitSym (copied : CStr → Bool) (ours : List Nat) (s : FixSym) : Bool :=
  s.sym.typ != .sect && s.sym.typ != .tls && !isOurSection ours s.sym.shndx && s.sym.shndx != 0 && copied s.name

/-- The symbols after relocations referring to `refs`. -/
def marked (hit : FixSym → Bool) (refs : List Nat) (syms : List FixSym) : List FixSym :=
  syms.mapIdx fun i s => if refs.contains i && hit s then s.undefined else s

theorem marked_get (hit : FixSym → Bool) (refs : List Nat) (syms : List FixSym) (i : Nat) :
    (marked hit refs syms)[i]? = (syms[i]?).map fun s => if refs.contains i && hit s then s.undefined else s := by
  unfold marked
  rw [List.getElem?_mapIdx]

theorem marked_cons_same {hit : FixSym → Bool} {refs : List Nat} {syms : List FixSym} {n : Nat}
    (h : ∀ s, syms[n]? = some s → refs.contains n = true ∨ hit s = false) :
    marked hit (n :: refs) syms = marked hit refs syms := by
  apply List.ext_getElem?
  intro i
  rw [marked_get, marked_get]
  cases hs : syms[i]? with
  | none => rfl
  | some s =>
    simp only [Option.map_some, Option.some.injEq, List.contains_cons]
    by_cases hi : i = n
    · subst hi
      rcases h s hs with e | e
      · rw [e]; simp
      · simp [e]
    · have : (i == n) = false := by simpa using hi
      rw [this, Bool.false_or]

theorem marked_cons_set {hit : FixSym → Bool} {refs : List Nat} {syms : List FixSym} {n : Nat} {s : FixSym}
    (hs : syms[n]? = some s) (hh : hit s = true) :
    (marked hit refs syms).set n s.undefined = marked hit (n :: refs) syms := by
  apply List.ext_getElem?
  intro i
  rw [List.getElem?_set, marked_get, marked_get]
  have hl : n < (marked hit refs syms).length := by
    unfold marked
    rw [List.length_mapIdx]
    exact (List.getElem?_eq_some_iff.1 hs).1
  by_cases hi : n = i
  · subst hi
    rw [if_pos rfl, if_pos hl, hs]
    simp [hh]
  · rw [if_neg hi]
    have : (i == n) = false := by simpa using fun e => hi e.symm
    simp only [List.contains_cons, this, Bool.false_or]

theorem sectionSymFrom_mapIdx (n : Nat) : ∀ (l : List FixSym) (f : Nat → FixSym → FixSym) (k : Nat),
    (∀ i s, (f i s).sym.typ = s.sym.typ ∧ (s.sym.typ = .sect → (f i s).sym.shndx = s.sym.shndx)) →
    sectionSymFrom n (l.mapIdx f) k = sectionSymFrom n l k := by
  intro l
  induction l with
  | nil => intro f k _; rfl
  | cons s ss ih =>
    intro f k h
    rw [List.mapIdx_cons]
    unfold sectionSymFrom
    rw [ih (fun i => f (i + 1)) (k + 1) (fun i s => h (i + 1) s), (h 0 s).1]
    by_cases ht : s.sym.typ = .sect
    · rw [(h 0 s).2 ht]
    · rw [if_neg (fun a => ht a.1), if_neg (fun a => ht a.1)]

theorem localSymLoc_marked {copied : CStr → Bool} {ours : List Nat} (patch : FixObj) (refs : List Nat) (s : Sym) :
    localSymLoc { patch with syms := marked (hitSym copied ours) refs patch.syms } s = localSymLoc patch s := by
  unfold localSymLoc
  have e : sectionSymFrom s.shndx (marked (hitSym copied ours) refs patch.syms) 0 = sectionSymFrom s.shndx patch.syms 0 := by
    unfold marked
    apply sectionSymFrom_mapIdx
    intro i s
    split
    next h =>
      refine ⟨rfl, fun ht => ?_⟩
      unfold hitSym at h
      rw [ht] at h
      simp at h
    · exact ⟨rfl, fun _ => rfl⟩
  simp only [e]
  rfl

/-- One relocation, in a loop in which symbols may have lost their definition already. -/
theorem archFixOne_marked {T : Type} {upd : FixSym → Rela T → Option (Rela T)} {copied : CStr → Bool} {ours : List Nat}
    {patch p' : FixObj} {refs : List Nat} {r r' : Rela T} (h0 : isOurSection ours 0 = false)
    (H : ∀ s ∈ patch.syms, copied s.name = true → s.sym.bind = .loc → s.name.head? ≠ some 0x2e#8)
    (h : archFixOne upd copied ours { patch with syms := marked (hitSym copied ours) refs patch.syms } r = some (r', p')) :
    p' = { patch with syms := marked (hitSym copied ours) (r.sym :: refs) patch.syms } ∧
    archFixOne upd (fun _ => false) ours patch r = some (r', patch) := by
  unfold archFixOne at h ⊢
  simp only [marked_get, localSymLoc_marked] at h
  cases hs : patch.syms[r.sym]? with
  | none => rw [hs] at h; simp at h
  | some s =>
    rw [hs] at h
    simp only [Option.map_some] at h
    have hmem := List.mem_of_getElem? hs
    by_cases hm : (refs.contains r.sym && hitSym copied ours s) = true
    · rw [if_pos hm] at h
      simp only [Bool.and_eq_true] at hm
      have hsame : marked (hitSym copied ours) (r.sym :: refs) patch.syms = marked (hitSym copied ours) refs patch.syms :=
        marked_cons_same (fun _ _ => Or.inl hm.1)
      rw [hsame]
      have hh := hm.2
      unfold hitSym at hh
      simp only [Bool.and_eq_true, bne_iff_ne, ne_eq, Bool.not_eq_true'] at hh
      obtain ⟨⟨⟨⟨a1, a2⟩, a3⟩, a4⟩, a5⟩ := hh
      have hd : ¬ (s.sym.bind = .loc ∧ s.name.head? = some 0x2e#8) := fun e => H s hmem a5 e.1 e.2
      simp only [FixSym.undefined, a1, a2, if_false, h0, Bool.false_eq_true, hd, ne_eq, not_true_eq_false, false_and] at h
      simp only [a1, a2, if_false, a3, Bool.false_eq_true, and_false, ne_eq, hd]
      split at h
      · simp at h
      next hn =>
      simp only [Option.some.injEq, Prod.mk.injEq] at h
      rw [if_neg hn]
      exact ⟨h.2.symm, by rw [h.1]⟩
    · rw [if_neg hm] at h
      have same : hitSym copied ours s = false →
          marked (hitSym copied ours) (r.sym :: refs) patch.syms = marked (hitSym copied ours) refs patch.syms := by
        intro e
        apply marked_cons_same
        intro s' hs'
        rw [hs] at hs'
        cases hs'
        exact Or.inr e
      simp only
      split at h
      next a =>
        simp only [Option.some.injEq, Prod.mk.injEq] at h
        rw [if_pos a, same (by simp [hitSym, a])]
        exact ⟨h.2.symm, by rw [h.1]⟩
      next a1 =>
      split at h
      next a =>
        rw [if_neg a1, if_pos a, same (by simp [hitSym, a])]
        rw [Option.map_eq_some_iff] at h ⊢
        obtain ⟨x, hx, e⟩ := h
        simp only [Prod.mk.injEq] at e
        exact ⟨e.2.symm, x, hx, by rw [e.1]⟩
      next a2 =>
      split at h
      next a =>
        simp only [Option.some.injEq, Prod.mk.injEq] at h
        rw [if_neg a1, if_neg a2, if_pos a, same (by simp [hitSym, a])]
        exact ⟨h.2.symm, by rw [h.1]⟩
      next a3 =>
      split at h
      · simp at h
      next a4 =>
      rw [if_neg a1, if_neg a2, if_neg a3, if_neg a4]
      split at h
      · simp at h
      next r1 hr1 =>
      simp only [Bool.false_eq_true, and_false, if_false]
      split at h
      next a5 =>
        simp only [Option.some.injEq, Prod.mk.injEq] at h
        have hd : ¬ (s.sym.bind = .loc ∧ s.name.head? = some 0x2e#8) := fun e => H s hmem a5.2 e.1 e.2
        rw [if_neg hd] at hr1
        simp only [Option.some.injEq] at hr1
        subst hr1
        refine ⟨?_, by rw [h.1]⟩
        rw [← h.2]
        have hit : hitSym copied ours s = true := by
          unfold hitSym
          simp only [Bool.and_eq_true, bne_iff_ne, ne_eq, Bool.not_eq_true']
          exact ⟨⟨⟨⟨a1, a2⟩, by simpa using a3⟩, a5.1⟩, a5.2⟩
        have := marked_cons_set (refs := refs) hs hit
        unfold FixSym.undefined at this
        rw [← this]
      next a5 =>
        simp only [Option.some.injEq, Prod.mk.injEq] at h
        refine ⟨?_, by rw [h.1]⟩
        rw [← h.2, same]
        unfold hitSym
        by_cases e : s.sym.shndx = 0
        · simp [e]
        · have : copied s.name = false := by
            cases hc : copied s.name with
            | false => rfl
            | true => exact absurd ⟨e, hc⟩ a5
          simp [this]

/-- The whole loop. -/
theorem archFixGo_marked {T : Type} {upd : FixSym → Rela T → Option (Rela T)} {copied : CStr → Bool} {ours : List Nat}
    {patch : FixObj} (h0 : isOurSection ours 0 = false)
    (H : ∀ s ∈ patch.syms, copied s.name = true → s.sym.bind = .loc → s.name.head? ≠ some 0x2e#8) :
    ∀ (rs : List (Rela T)) (refs : List Nat) (rs' : List (Rela T)) (p' : FixObj),
    archFixGo upd copied ours { patch with syms := marked (hitSym copied ours) refs patch.syms } rs = some (rs', p') →
    p' = { patch with syms := marked (hitSym copied ours) ((rs.map Rela.sym).reverse ++ refs) patch.syms } ∧
    rs'.length = rs.length ∧
    ∀ (i : Nat) (r : Rela T), rs[i]? = some r → ∃ r', rs'[i]? = some r' ∧
      archFixOne upd (fun _ => false) ours patch r = some (r', patch) := by
  intro rs
  induction rs with
  | nil =>
    intro refs rs' p' h
    simp only [archFixGo, Option.some.injEq, Prod.mk.injEq] at h
    refine ⟨by simpa using h.2.symm, by rw [← h.1], fun i r hr => by simp at hr⟩
  | cons r rs ih =>
    intro refs rs' p' h
    unfold archFixGo at h
    split at h
    · simp at h
    next r1 p1 h1 =>
    obtain ⟨e1, e2⟩ := archFixOne_marked h0 H h1
    subst e1
    split at h
    · simp at h
    next rs1 p2 h2 =>
    simp only [Option.some.injEq, Prod.mk.injEq] at h
    obtain ⟨rfl, rfl⟩ := h
    obtain ⟨f1, f2, f3⟩ := ih _ _ _ h2
    refine ⟨by simpa using f1, by simp [f2], ?_⟩
    intro i q hq
    cases i with
    | zero =>
      simp only [List.getElem?_cons_zero, Option.some.injEq] at hq
      subst hq
      exact ⟨r1, rfl, e2⟩
    | succ i => exact f3 i q (by simpa using hq)

theorem marked_nil (hit : FixSym → Bool) (syms : List FixSym) : marked hit [] syms = syms := by
  apply List.ext_getElem?
  intro i
  rw [marked_get]
  cases syms[i]? <;> simp

theorem ours_zero {o : FixObj} {ours : List Nat} (h : kpatchSections o = some ours) : isOurSection ours 0 = false := by
  cases e : isOurSection ours 0 with
  | false => rfl
  | true => exact absurd rfl ((isOur_iff h 0).1 e).1

theorem archFix_spec {T : Type} {upd : FixSym → Rela T → Option (Rela T)} {copied : CStr → Bool} {orig patch p' : FixObj}
    {rs rs' : List (Rela T)}
    (H : ∀ s ∈ patch.syms, copied s.name = true → s.sym.bind = .loc → s.name.head? ≠ some 0x2e#8)
    (h : archFix upd copied orig patch rs = some (rs', p')) :
    ∃ ours, kpatchSections patch = some ours ∧
      p' = { patch with syms := marked (hitSym copied ours) (rs.map Rela.sym).reverse patch.syms } ∧
      rs'.length = rs.length ∧
      ∀ (i : Nat) (r : Rela T), rs[i]? = some r → ∃ r', rs'[i]? = some r' ∧
        archFixOne upd (fun _ => false) ours patch r = some (r', patch) := by
  unfold archFix at h
  split at h
  next ours h1 h2 =>
    refine ⟨ours, h2, ?_⟩
    have := archFixGo_marked (upd := upd) (copied := copied) (ours := ours) (patch := patch) (ours_zero h2) H rs [] rs' p'
    rw [marked_nil] at this
    simpa using this h
  · simp at h

/-- A relocation against something else than a thread-local variable. -/
theorem archFixOne_refers {T : Type} {upd : FixSym → Rela T → Option (Rela T)} {ours : List Nat} {patch p' : FixObj}
    {r r' : Rela T} (h : archFixOne upd (fun _ => false) ours patch r = some (r', p')) (hl : LinkedObj patch)
    {s : FixSym} (hs : patch.syms[r.sym]? = some s) (ht : s.sym.typ ≠ .tls) :
    r'.offset = r.offset ∧ r'.typ = r.typ ∧ ∀ P, archRefersTo patch P r' = archRefersTo patch P r := by
  unfold archFixOne at h
  rw [hs] at h
  simp only [Bool.false_eq_true, and_false, if_false] at h
  split at h
  · simp only [Option.some.injEq, Prod.mk.injEq] at h
    rw [← h.1]; exact ⟨rfl, rfl, fun _ => rfl⟩
  next h1 =>
  split at h
  · simp only [Option.some.injEq, Prod.mk.injEq] at h
    rw [← h.1]; exact ⟨rfl, rfl, fun _ => rfl⟩
  split at h
  · simp at h
  split at h
  · simp at h
  next r1 hr1 =>
  simp only [Option.some.injEq, Prod.mk.injEq] at h
  obtain ⟨rfl, _⟩ := h
  split at hr1
  next hd =>
    rw [Option.map_eq_some_iff] at hr1
    obtain ⟨⟨i, off⟩, hloc, rfl⟩ := hr1
    refine ⟨rfl, rfl, fun P => ?_⟩
    unfold localSymLoc at hloc
    split at hloc
    · exact absurd hloc (by simp)
    next j hj =>
    rw [Option.map_eq_some_iff] at hloc
    obtain ⟨o, ho, e⟩ := hloc
    simp only [Prod.mk.injEq] at e
    obtain ⟨rfl, rfl⟩ := e
    obtain ⟨_, s1, e1, e2, e3⟩ := sectionSymFrom_spec hj
    rw [Nat.sub_zero] at e1
    have hn0 : s.sym.shndx ≠ 0 := by
      rw [← e3]; exact hl.1 s1 (List.mem_of_getElem? e1) e2
    unfold symOffsetInSection at ho
    rw [if_neg ht] at ho
    split at ho
    · exact absurd ho (by simp)
    next sec hsec =>
    split at ho
    · exact absurd ho (by simp)
    simp only [Option.some.injEq] at ho
    subst ho
    have hlt : s.sym.shndx < 0xff00 := by
      have := (List.getElem?_eq_some_iff.1 hsec).1
      have := hl.2
      omega
    unfold archRefersTo
    simp only [e1, hs, Option.map_some, Option.some.injEq]
    unfold runAddr
    rw [e3, e2, if_neg (by omega), if_pos rfl, if_neg (by omega), if_neg h1, hsec]
    simp only [Option.map_some, Option.getD_some]
    rw [BitVec.add_comm r.addend, BitVec.add_assoc]
  · simp only [Option.some.injEq] at hr1
    subst hr1
    exact ⟨rfl, rfl, fun _ => rfl⟩

theorem archFixOne_tls {T : Type} {upd : FixSym → Rela T → Option (Rela T)} {copied : CStr → Bool} {ours : List Nat}
    {patch p' : FixObj} {r r' : Rela T} (h : archFixOne upd copied ours patch r = some (r', p'))
    {s : FixSym} (hs : patch.syms[r.sym]? = some s) (ht : s.sym.typ = .tls) : upd s r = some r' := by
  unfold archFixOne at h
  rw [hs] at h
  simp only [ht, reduceCtorEq, if_false, if_true] at h
  rw [Option.map_eq_some_iff] at h
  obtain ⟨x, hx, e⟩ := h
  simp only [Prod.mk.injEq] at e
  rw [hx, e.1]

theorem loadReladyn_sub {D : Type} {isTls : D → Bool} {dyn : Option (List (DynRelOf D))} {l : List (DynRelOf D)}
    (h : loadReladyn isTls dyn = some l) : ∃ all, dyn = some all ∧ ∀ d ∈ l, d ∈ all := by
  unfold loadReladyn at h
  split at h
  · simp at h
  next all =>
  refine ⟨all, rfl, ?_⟩
  simp only at h
  split at h
  · simp at h
  simp only [Option.some.injEq] at h
  subst h
  intro d hd
  rw [List.mem_reverse] at hd
  have := (List.dropWhile_sublist _).subset hd
  rw [List.mem_reverse] at this
  exact (List.dropWhile_sublist _).subset this

theorem gotByOffset_spec {D : Type} {sel : D → Bool} {off slot : BitVec 64} : ∀ {l : List (DynRelOf D)},
    gotByOffset sel off l = some slot → ∃ d ∈ l, sel d.typ = true ∧ d.sym = 0 ∧ d.addend = off ∧ d.offset = slot := by
  intro l
  induction l with
  | nil => intro h; simp [gotByOffset] at h
  | cons d ds ih =>
    intro h
    unfold gotByOffset at h
    split at h
    · obtain ⟨x, hx, e⟩ := ih h
      exact ⟨x, List.mem_cons_of_mem _ hx, e⟩
    next hsel =>
    split at h
    next hc =>
      simp only [Option.some.injEq] at h
      simp only [Bool.and_eq_true, beq_iff_eq] at hc
      exact ⟨d, List.mem_cons_self, by simpa using hsel, hc.1, hc.2, h⟩
    · obtain ⟨x, hx, e⟩ := ih h
      exact ⟨x, List.mem_cons_of_mem _ hx, e⟩

theorem gotByName_spec {D : Type} {sel : D → Bool} {names : List CStr} {name : CStr} {slot : BitVec 64} :
    ∀ {l : List (DynRelOf D)}, gotByName sel names name l = some slot →
      ∃ d ∈ l, sel d.typ = true ∧ d.sym ≠ 0 ∧ d.addend = 0#64 ∧ names[d.sym]? = some name ∧ d.offset = slot := by
  intro l
  induction l with
  | nil => intro h; simp [gotByName] at h
  | cons d ds ih =>
    intro h
    unfold gotByName at h
    split at h
    · obtain ⟨x, hx, e⟩ := ih h
      exact ⟨x, List.mem_cons_of_mem _ hx, e⟩
    next hsel =>
    split at h
    · obtain ⟨x, hx, e⟩ := ih h
      exact ⟨x, List.mem_cons_of_mem _ hx, e⟩
    next hc =>
    split at h
    · simp at h
    next n hn =>
    split at h
    next he =>
      simp only [Option.some.injEq] at h
      simp only [Bool.or_eq_true, beq_iff_eq, bne_iff_ne, ne_eq, not_or, not_not] at hc
      simp only [beq_iff_eq] at he
      exact ⟨d, List.mem_cons_self, by simpa using hsel, hc.1, hc.2, by rw [hn, he], h⟩
    · obtain ⟨x, hx, e⟩ := ih h
      exact ⟨x, List.mem_cons_of_mem _ hx, e⟩

end Verif
