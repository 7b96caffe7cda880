import Verif.Spec.Fixup
import Verif.Proof.Reloc
/-
Lemmas for C68.
-/
namespace Verif
open Cpu

theorem mem_kpatchSectionsFrom (n : Nat) : ∀ (l : List FixSec) (i : Nat),
    n ∈ kpatchSectionsFrom l i ↔ i ≤ n ∧ ∃ sec, l[n - i]? = some sec ∧ lit ".kpatch" <+: sec.name := by
  intro l
  induction l with
  | nil => intro i; simp [kpatchSectionsFrom]
  | cons s ss ih =>
    intro i
    have key : (i + 1 ≤ n ∧ ∃ sec, ss[n - (i + 1)]? = some sec ∧ lit ".kpatch" <+: sec.name) ↔
        (n ≠ i ∧ i ≤ n ∧ ∃ sec, (s :: ss)[n - i]? = some sec ∧ lit ".kpatch" <+: sec.name) := by
      constructor
      · rintro ⟨h1, h2⟩
        refine ⟨by omega, by omega, ?_⟩
        have : n - i = (n - (i + 1)) + 1 := by omega
        rw [this]; simpa using h2
      · rintro ⟨h0, h1, h2⟩
        refine ⟨by omega, ?_⟩
        have : n - i = (n - (i + 1)) + 1 := by omega
        rw [this] at h2; simpa using h2
    unfold kpatchSectionsFrom
    split
    next hp =>
      rw [List.mem_cons, ih, key]
      constructor
      · rintro (rfl | ⟨_, h⟩)
        · exact ⟨Nat.le_refl _, s, by simp, by simpa using hp⟩
        · exact h
      · intro h
        by_cases hn : n = i
        · exact Or.inl hn
        · exact Or.inr ⟨hn, h⟩
    next hp =>
      rw [ih, key]
      constructor
      · rintro ⟨_, h⟩; exact h
      · rintro ⟨h1, sec, h2, h3⟩
        refine ⟨?_, h1, sec, h2, h3⟩
        rintro rfl
        simp at h2
        subst h2
        simp at hp
        exact hp h3

theorem isOur_iff {o : FixObj} {ours : List Nat} (h : kpatchSections o = some ours) (n : Nat) :
    isOurSection ours n = true ↔ OwnSection o n := by
  unfold kpatchSections at h
  simp only at h
  split at h
  · exact absurd h (by simp)
  simp only [Option.some.injEq] at h
  subst h
  unfold isOurSection OwnSection
  rw [List.contains_iff_mem, mem_kpatchSectionsFrom]
  constructor
  · rintro ⟨h1, sec, h2, h3⟩
    refine ⟨by omega, sec, ?_, h3⟩
    rw [List.getElem?_drop] at h2
    rwa [show 1 + (n - 1) = n by omega] at h2
  · rintro ⟨h1, sec, h2, h3⟩
    refine ⟨by omega, sec, ?_, h3⟩
    rw [List.getElem?_drop, show 1 + (n - 1) = n by omega]
    exact h2

theorem sectionSymFrom_spec {shndx : Nat} : ∀ {l : List FixSym} {i k : Nat}, sectionSymFrom shndx l i = some k →
    i ≤ k ∧ ∃ s, l[k - i]? = some s ∧ s.sym.typ = .sect ∧ s.sym.shndx = shndx := by
  intro l
  induction l with
  | nil => intro i k h; simp [sectionSymFrom] at h
  | cons s ss ih =>
    intro i k h
    unfold sectionSymFrom at h
    split at h
    next hp =>
      simp only [Option.some.injEq] at h
      subst h
      exact ⟨Nat.le_refl _, s, by simp, hp.1, hp.2⟩
    next hp =>
      obtain ⟨h1, s', h2, h3⟩ := ih h
      refine ⟨by omega, s', ?_, h3⟩
      rw [show k - i = (k - (i + 1)) + 1 by omega]
      simpa using h2

/-! ### One relocation -/

/-- What happens to a relocation, apart from the text. -/
theorem one_cases {orig patch : FixObj} {ours : List Nat} {shAddr : Nat} {r r' : Rela X86Rel} {text text' : List Byte}
    (h : fixupRelaOne orig patch ours shAddr r text = some (r', text')) :
    ∃ s, patch.syms[r.sym]? = some s ∧
      ((s.sym.typ = .sect ∧ r' = r ∧ text' = text) ∨
       (s.sym.typ = .tls ∧ updateTls orig s r = some r' ∧ text' = text) ∨
       (s.sym.typ ≠ .sect ∧ s.sym.typ ≠ .tls ∧ isOurSection ours s.sym.shndx = true ∧ r' = pltToPc r ∧ text' = text) ∨
       (s.sym.typ ≠ .sect ∧ s.sym.typ ≠ .tls ∧ isOurSection ours s.sym.shndx = false ∧
        ∃ r1, (r1 = r ∨ ∃ i off, localSymLoc patch s.sym = some (i, off) ∧
            r1 = { r with sym := i, addend := r.addend + off }) ∧ r' = pltToPc r1 ∧
          ((s.sym.shndx ≠ 0 ∧ isGotPcrel r.typ = true ∧ movToLea shAddr r text = some text') ∨
           (¬ (s.sym.shndx ≠ 0 ∧ isGotPcrel r.typ = true) ∧ text' = text)))) := by
  unfold fixupRelaOne at h
  cases hs : patch.syms[r.sym]? with
  | none => rw [hs] at h; simp at h
  | some s =>
    rw [hs] at h
    refine ⟨s, rfl, ?_⟩
    simp only at h
    split at h
    next h1 =>
      simp only [Option.some.injEq, Prod.mk.injEq] at h
      exact Or.inl ⟨h1, h.1.symm, h.2.symm⟩
    next h1 =>
    split at h
    next h2 =>
      rw [Option.map_eq_some_iff] at h
      obtain ⟨a, ha, e⟩ := h
      simp only [Prod.mk.injEq] at e
      obtain ⟨rfl, rfl⟩ := e
      exact Or.inr (Or.inl ⟨h2, ha, rfl⟩)
    next h2 =>
    split at h
    next h3 =>
      simp only [Option.some.injEq, Prod.mk.injEq] at h
      exact Or.inr (Or.inr (Or.inl ⟨h1, h2, h3, h.1.symm, h.2.symm⟩))
    next h3 =>
    split at h
    · exact absurd h (by simp)
    have h3' : isOurSection ours s.sym.shndx = false := by simpa using h3
    refine Or.inr (Or.inr (Or.inr ⟨h1, h2, h3', ?_⟩))
    generalize hr1 : (if s.sym.bind = .loc ∧ s.name.head? = some 0x2e#8 then
          (localSymLoc patch s.sym).map fun (i, off) => { r with sym := i, addend := r.addend + off }
        else some r) = r1 at h
    cases r1 with
    | none => simp at h
    | some r1 =>
      simp only at h
      have hr : (r1 = r ∨ ∃ i off, localSymLoc patch s.sym = some (i, off) ∧
            r1 = { r with sym := i, addend := r.addend + off }) := by
        split at hr1
        · rw [Option.map_eq_some_iff] at hr1
          obtain ⟨⟨i, off⟩, ha, e⟩ := hr1
          exact Or.inr ⟨i, off, ha, e.symm⟩
        · simp only [Option.some.injEq] at hr1
          exact Or.inl hr1.symm
      have ht : r1.typ = r.typ ∧ r1.offset = r.offset := by
        rcases hr with rfl | ⟨_, _, _, rfl⟩ <;> exact ⟨rfl, rfl⟩
      refine ⟨r1, hr, ?_⟩
      split at h
      next h5 =>
        rw [Option.map_eq_some_iff] at h
        obtain ⟨a, ha, e⟩ := h
        simp only [Prod.mk.injEq] at e
        obtain ⟨rfl, rfl⟩ := e
        rw [ht.1] at h5
        refine ⟨rfl, Or.inl ⟨h5.1, h5.2, ?_⟩⟩
        unfold movToLea at ha ⊢
        rw [ht.2] at ha
        exact ha
      next h5 =>
        simp only [Option.some.injEq, Prod.mk.injEq] at h
        rw [ht.1] at h5
        exact ⟨h.1.symm, Or.inr ⟨h5, h.2.symm⟩⟩

theorem movToLea_spec {shAddr : Nat} {r : Rela X86Rel} {text text' : List Byte} (h : movToLea shAddr r text = some text') :
    shAddr + 2 ≤ r.offset ∧ r.offset - shAddr - 2 < text.length ∧ text'.length = text.length ∧
    (∀ k, k ≠ r.offset - shAddr - 2 → text'[k]? = text[k]?) ∧
    (text[r.offset - shAddr - 2]? = some 0x8b#8 → text'[r.offset - shAddr - 2]? = some 0x8d#8) ∧
    (text[r.offset - shAddr - 2]? ≠ some 0x8b#8 → text' = text) := by
  unfold movToLea at h
  split at h
  · exact absurd h (by simp)
  next hlt =>
  cases hb : text[r.offset - shAddr - 2]? with
  | none => rw [hb] at h; simp at h
  | some b =>
    rw [hb] at h
    have hl : r.offset - shAddr - 2 < text.length := (List.getElem?_eq_some_iff.1 hb).1
    simp only [Option.some.injEq] at h
    refine ⟨by omega, hl, ?_⟩
    split at h
    next hbb =>
      subst h hbb
      refine ⟨by simp, ?_, ?_, ?_⟩
      · intro k hk
        rw [List.getElem?_set]
        simp [Ne.symm hk]
      · intro _
        rw [List.getElem?_set]
        simp [hl]
      · intro hne
        exact absurd rfl hne
    next hbb =>
      subst h
      refine ⟨rfl, fun _ _ => rfl, ?_, fun _ => rfl⟩
      intro hc
      simp at hc
      exact absurd hc hbb

/-! ### All relocations of a section -/

theorem go_length {orig patch : FixObj} {ours : List Nat} {shAddr : Nat} : ∀ {rs rs' : List (Rela X86Rel)}
    {text text' : List Byte}, fixupRelaGo orig patch ours shAddr rs text = some (rs', text') →
    rs'.length = rs.length := by
  intro rs
  induction rs with
  | nil => intro rs' text text' h; simp [fixupRelaGo] at h; simp [← h.1]
  | cons r rs ih =>
    intro rs' text text' h
    unfold fixupRelaGo at h
    split at h
    · exact absurd h (by simp)
    split at h
    · exact absurd h (by simp)
    next h2 =>
      simp only [Option.some.injEq, Prod.mk.injEq] at h
      rw [← h.1, List.length_cons, List.length_cons, ih h2]

theorem go_each {orig patch : FixObj} {ours : List Nat} {shAddr : Nat} : ∀ {rs rs' : List (Rela X86Rel)}
    {text text' : List Byte}, fixupRelaGo orig patch ours shAddr rs text = some (rs', text') →
    ∀ (i : Nat) (r : Rela X86Rel), rs[i]? = some r → ∃ r' t t', rs'[i]? = some r' ∧
      fixupRelaOne orig patch ours shAddr r t = some (r', t') := by
  intro rs
  induction rs with
  | nil => intro rs' text text' h i r hi; simp at hi
  | cons r rs ih =>
    intro rs' text text' h i q hi
    unfold fixupRelaGo at h
    split at h
    · exact absurd h (by simp)
    next r1 t1 h1 =>
    split at h
    · exact absurd h (by simp)
    next rs2 t2 h2 =>
      simp only [Option.some.injEq, Prod.mk.injEq] at h
      obtain ⟨rfl, rfl⟩ := h
      cases i with
      | zero =>
        simp at hi
        subst hi
        exact ⟨r1, text, t1, by simp, h1⟩
      | succ i =>
        simp at hi
        obtain ⟨r', t, t', e1, e2⟩ := ih h2 i q hi
        exact ⟨r', t, t', by simpa using e1, e2⟩

/-- The relocation `r` changes a `mov` of the text. -/
def Changes (patch : FixObj) (ours : List Nat) (r : Rela X86Rel) : Prop :=
  ∃ s, patch.syms[r.sym]? = some s ∧ s.sym.typ ≠ .sect ∧ s.sym.typ ≠ .tls ∧ isOurSection ours s.sym.shndx = false ∧
    s.sym.shndx ≠ 0 ∧ isGotPcrel r.typ = true

/-- A byte of the text after one relocation. -/
theorem one_text {orig patch : FixObj} {ours : List Nat} {shAddr : Nat} {r r' : Rela X86Rel} {text text' : List Byte}
    (h : fixupRelaOne orig patch ours shAddr r text = some (r', text')) :
    text'.length = text.length ∧ ∀ k : Nat,
      (text'[k]? = text[k]? ∧ (Changes patch ours r → r.offset = shAddr + k + 2 → text[k]? ≠ some 0x8b#8)) ∨
      (text[k]? = some 0x8b#8 ∧ text'[k]? = some 0x8d#8 ∧ Changes patch ours r ∧ r.offset = shAddr + k + 2) := by
  obtain ⟨s, hs, hc⟩ := one_cases h
  rcases hc with ⟨h1, _, rfl⟩ | ⟨h1, _, rfl⟩ | ⟨h1, h2, h3, _, rfl⟩ | ⟨h1, h2, h3, r1, _, _, h4⟩
  · refine ⟨rfl, fun k => Or.inl ⟨rfl, ?_⟩⟩
    rintro ⟨s', hs', a, _⟩
    rw [hs] at hs'; cases hs'; exact absurd h1 a
  · refine ⟨rfl, fun k => Or.inl ⟨rfl, ?_⟩⟩
    rintro ⟨s', hs', _, a, _⟩
    rw [hs] at hs'; cases hs'; exact absurd h1 a
  · refine ⟨rfl, fun k => Or.inl ⟨rfl, ?_⟩⟩
    rintro ⟨s', hs', _, _, a, _⟩
    rw [hs] at hs'; cases hs'; rw [h3] at a; exact absurd a (by simp)
  · rcases h4 with ⟨h5, h6, h7⟩ | ⟨h5, rfl⟩
    · obtain ⟨m1, m2, m3, m4, m5, m6⟩ := movToLea_spec h7
      refine ⟨m3, fun k => ?_⟩
      by_cases hk : k = r.offset - shAddr - 2
      · subst hk
        by_cases hb : text[r.offset - shAddr - 2]? = some 0x8b#8
        · exact Or.inr ⟨hb, m5 hb, ⟨s, hs, h1, h2, h3, h5, h6⟩, by omega⟩
        · exact Or.inl ⟨by rw [m6 hb], fun _ _ => hb⟩
      · exact Or.inl ⟨m4 k hk, fun _ e => absurd (by omega) hk⟩
    · refine ⟨rfl, fun k => Or.inl ⟨rfl, ?_⟩⟩
      rintro ⟨s', hs', _, _, _, a, b⟩
      rw [hs] at hs'; cases hs'; exact absurd ⟨a, b⟩ h5

/-- The text after all relocations. -/
theorem go_text {orig patch : FixObj} {ours : List Nat} {shAddr : Nat} : ∀ {rs rs' : List (Rela X86Rel)}
    {text text' : List Byte}, fixupRelaGo orig patch ours shAddr rs text = some (rs', text') →
    text'.length = text.length ∧ ∀ k : Nat,
      (text'[k]? = text[k]? ∧ ((∃ r ∈ rs, Changes patch ours r ∧ r.offset = shAddr + k + 2) → text[k]? ≠ some 0x8b#8)) ∨
      (text[k]? = some 0x8b#8 ∧ text'[k]? = some 0x8d#8 ∧ ∃ r ∈ rs, Changes patch ours r ∧ r.offset = shAddr + k + 2) := by
  intro rs
  induction rs with
  | nil =>
    intro rs' text text' h
    simp [fixupRelaGo] at h
    rw [← h.2]
    refine ⟨rfl, fun k => Or.inl ⟨rfl, ?_⟩⟩
    rintro ⟨r, hr, _⟩
    simp at hr
  | cons r rs ih =>
    intro rs' text text' h
    unfold fixupRelaGo at h
    split at h
    · exact absurd h (by simp)
    next r1 t1 h1 =>
    split at h
    · exact absurd h (by simp)
    next rs2 t2 h2 =>
      simp only [Option.some.injEq, Prod.mk.injEq] at h
      obtain ⟨_, rfl⟩ := h
      obtain ⟨l1, a1⟩ := one_text h1
      obtain ⟨l2, a2⟩ := ih h2
      refine ⟨l2.trans l1, fun k => ?_⟩
      rcases a1 k with ⟨e1, n1⟩ | ⟨e1, e1', c1, o1⟩ <;> rcases a2 k with ⟨e2, n2⟩ | ⟨e2, e2', q, hq, c2, o2⟩
      · refine Or.inl ⟨e2.trans e1, ?_⟩
        rintro ⟨q, hq, c, o⟩
        rcases List.mem_cons.1 hq with rfl | hq
        · exact n1 c o
        · rw [← e1]; exact n2 ⟨q, hq, c, o⟩
      · exact Or.inr ⟨e1 ▸ e2, e2', q, List.mem_cons_of_mem _ hq, c2, o2⟩
      · exact Or.inr ⟨e1, e2.trans e1', r, List.mem_cons_self, c1, o1⟩
      · rw [e1'] at e2; exact absurd e2 (by decide)

theorem fixupRela_go {orig patch : FixObj} {shAddr : Nat} {rs rs' : List (Rela X86Rel)} {text text' : List Byte}
    (h : fixupRela orig patch shAddr rs text = some (rs', text')) :
    ∃ ours, kpatchSections patch = some ours ∧ fixupRelaGo orig patch ours shAddr rs text = some (rs', text') := by
  unfold fixupRela at h
  split at h
  next _ ours _ h2 => exact ⟨ours, h2, h⟩
  · exact absurd h (by simp)

theorem isGotPcrel_iff (t : X86Rel) : isGotPcrel t = true ↔ ReadsAddress t := by
  unfold ReadsAddress isGotPcrel
  cases t <;> simp

theorem changes_iff {patch : FixObj} {ours : List Nat} (h : kpatchSections patch = some ours) (r : Rela X86Rel) :
    Changes patch ours r ↔ ∃ s, patch.syms[r.sym]? = some s ∧ OfProgram patch s.sym ∧ ReadsAddress r.typ := by
  unfold Changes OfProgram
  constructor
  · rintro ⟨s, h1, h2, h3, h4, h5, h6⟩
    exact ⟨s, h1, ⟨h5, h2, h3, by rw [← isOur_iff h]; simp [h4]⟩, (isGotPcrel_iff _).1 h6⟩
  · rintro ⟨s, h1, ⟨h5, h2, h3, h4⟩, h6⟩
    exact ⟨s, h1, h2, h3, by rw [← isOur_iff h] at h4; simpa using h4, h5, (isGotPcrel_iff _).2 h6⟩

theorem pltToPc_spec (r : Rela X86Rel) : (pltToPc r).offset = r.offset ∧ (pltToPc r).sym = r.sym ∧
    (pltToPc r).addend = r.addend ∧ (pltToPc r).typ ≠ plt32 ∧
    ((pltToPc r).typ = r.typ ∨ r.typ = plt32 ∧ (pltToPc r).typ = .pc32) := by
  unfold pltToPc
  split
  next h => exact ⟨rfl, rfl, rfl, by simp [plt32], Or.inr ⟨h, rfl⟩⟩
  next h => exact ⟨rfl, rfl, rfl, h, Or.inl rfl⟩

/-! ### Dynamic relocations of thread-local storage -/

theorem mem_of_loadTls {o : FixObj} {l : List DynRel} (h : loadTlsReladyn o = some l) :
    ∃ all, o.relaDyn = some all ∧ ∀ d ∈ l, d ∈ all := by
  unfold loadTlsReladyn at h
  split at h
  · exact absurd h (by simp)
  next all e =>
    refine ⟨all, e, ?_⟩
    simp only at h
    split at h
    · exact absurd h (by simp)
    simp only [Option.some.injEq] at h
    subst h
    intro d hd
    rw [List.mem_reverse] at hd
    have h1 := (List.dropWhile_suffix _).subset hd
    rw [List.mem_reverse] at h1
    exact (List.dropWhile_suffix _).subset h1

theorem byOffset_spec {off got : BitVec 64} : ∀ {l : List DynRel}, tlsGotByOffset off l = some got →
    ∃ d ∈ l, isTlsRela d = true ∧ d.sym = 0 ∧ d.addend = off ∧ d.offset = got := by
  intro l
  induction l with
  | nil => intro h; simp [tlsGotByOffset] at h
  | cons d ds ih =>
    intro h
    unfold tlsGotByOffset at h
    split at h
    · obtain ⟨x, h1, h2⟩ := ih h
      exact ⟨x, List.mem_cons_of_mem _ h1, h2⟩
    next ht =>
    split at h
    next hp =>
      simp only [Bool.and_eq_true, beq_iff_eq] at hp
      simp only [Option.some.injEq] at h
      exact ⟨d, List.mem_cons_self, by simpa using ht, hp.1, hp.2, h⟩
    · obtain ⟨x, h1, h2⟩ := ih h
      exact ⟨x, List.mem_cons_of_mem _ h1, h2⟩

theorem byName_spec {names : List CStr} {name : CStr} {got : BitVec 64} : ∀ {l : List DynRel},
    tlsGotByName names name l = some got →
    ∃ d ∈ l, isTlsRela d = true ∧ d.sym ≠ 0 ∧ names[d.sym]? = some name ∧ d.addend = 0#64 ∧ d.offset = got := by
  intro l
  induction l with
  | nil => intro h; simp [tlsGotByName] at h
  | cons d ds ih =>
    intro h
    have up : ∀ {p : DynRel → Prop}, (∃ x ∈ ds, p x) → ∃ x ∈ d :: ds, p x :=
      fun ⟨x, h1, h2⟩ => ⟨x, List.mem_cons_of_mem _ h1, h2⟩
    unfold tlsGotByName at h
    split at h
    · exact up (ih h)
    next ht =>
    split at h
    · exact up (ih h)
    next hp =>
    simp only [Bool.or_eq_true, beq_iff_eq, bne_iff_ne, ne_eq, not_or, Decidable.not_not] at hp
    split at h
    · exact absurd h (by simp)
    next n hn =>
    split at h
    next hnn =>
      simp only [Option.some.injEq] at h
      exact ⟨d, List.mem_cons_self, by simpa using ht, hp.1, by rw [hn, eq_of_beq hnn], hp.2, h⟩
    · exact up (ih h)

end Verif
