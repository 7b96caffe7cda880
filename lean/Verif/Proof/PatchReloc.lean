import Verif.Proof.PatchElf
/-
The relocation pass over the patch's ELF object as bytes (C79).
-/
namespace Verif
open Cpu

/-- Section `i` is a relocation section. -/
def IsRela (img : List Byte) (i : Nat) : Prop := 1 ≤ i ∧ i < elfShnum img ∧ (elfShdr img i).typ = 4

/-- Byte `k` of the file belongs to section `i`. -/
def InSec (img : List Byte) (i k : Nat) : Prop :=
  (elfShdr img i).offset ≤ k ∧ k < (elfShdr img i).offset + (elfShdr img i).size

/-- The parts of the file the relocation code reads: headers, symbols, section names and relocations. -/
def Meta (img : List Byte) (si k : Nat) : Prop :=
  k < 64 ∨ (elfShoff img ≤ k ∧ k < elfShoff img + 64 * elfShnum img) ∨ InSec img si k ∨
    InSec img (elfShstrndx img) k ∨ ∃ i, IsRela img i ∧ InSec img i k

/-- The `k`-th relocation of section `i`. -/
def relaOf (img : List Byte) (i k : Nat) : Rela Nat := elfRela img ((elfShdr img i).offset + 24 * k)

/-- What the relocation code takes from the section that section `i` relocates. -/
def secOf (img : List Byte) (i : Nat) : RelSec :=
  { fileOff := (elfShdr img (elfShdr img i).info).offset, size := (elfShdr img (elfShdr img i).info).size
    addr := (elfShdr img (elfShdr img i).info).addr
    isInfo := strcmp (elfSecName img (elfShdr img i).info) (lit ".kpatch.info") == 0 }

/-- The place of the `k`-th relocation of section `i` in the file. -/
def placeOf (img : List Byte) (i k : Nat) : Nat := (secOf img i).fileOff + (relaOf img i k).offset

/-- The symbol of the `k`-th relocation of section `i`. -/
def symOf (img : List Byte) (si i k : Nat) : Sym := elfSym img ((elfShdr img si).offset + 24 * (relaOf img i k).sym)

structure RelocsOk (w : Rela Nat → Nat) (img : List Byte) (si : Nat) : Prop where
  sym : 1 ≤ si ∧ si < elfShnum img ∧ (elfShdr img si).typ = 2
  one : ∀ j, 1 ≤ j → j < elfShnum img → (elfShdr img j).typ = 2 → j = si
  str : elfShstrndx img < elfShnum img ∧ 0 < (elfShdr img (elfShstrndx img)).size ∧
    img[(elfShdr img (elfShstrndx img)).offset + (elfShdr img (elfShstrndx img)).size - 1]? = some 0#8
  names : ∀ i, 1 ≤ i → i < elfShnum img → (elfShdr img i).name < (elfShdr img (elfShstrndx img)).size
  target : ∀ i, IsRela img i → 1 ≤ (elfShdr img i).info ∧ (elfShdr img i).info < elfShnum img ∧
    (secOf img i).fileOff + (secOf img i).size ≤ img.length
  avoid : ∀ i, IsRela img i → ∀ k, InSec img (elfShdr img i).info k → ¬ Meta img si k
  apart : ∀ i j, IsRela img i → IsRela img j → i ≠ j → ∀ k,
    ¬ (InSec img (elfShdr img i).info k ∧ InSec img (elfShdr img j).info k)
  rels : ∀ i, IsRela img i → ∀ k, k < (elfShdr img i).size / 24 →
    (relaOf img i k).sym < (elfShdr img si).size / 24 ∧ (relaOf img i k).offset + w (relaOf img i k) ≤ (secOf img i).size
  disj : ∀ i, IsRela img i → ∀ k k', k < k' → k' < (elfShdr img i).size / 24 →
    (relaOf img i k).offset + w (relaOf img i k) ≤ (relaOf img i k').offset ∨
    (relaOf img i k').offset + w (relaOf img i k') ≤ (relaOf img i k).offset

/-- The parts that are read are the same. -/
structure SameMeta (a b : List Byte) (si : Nat) : Prop where
  len : a.length = b.length
  eq : ∀ k, Meta b si k → a[k]? = b[k]?

section
variable {w : Rela Nat → Nat} {a b : List Byte} {si : Nat}

theorem SameMeta.ehdr (h : SameMeta a b si) :
    elfShoff a = elfShoff b ∧ elfShnum a = elfShnum b ∧ elfShstrndx a = elfShstrndx b :=
  ehdr_congr a b fun k hk => h.eq k (.inl hk)

theorem SameMeta.shdr (h : SameMeta a b si) {i : Nat} (hi : i < elfShnum b) : elfShdr a i = elfShdr b i := by
  apply elfShdr_congr _ _ _ h.ehdr.1
  intro k h1 h2
  exact h.eq k (.inr (.inl ⟨by omega, by omega⟩))

theorem SameMeta.isRela (h : SameMeta a b si) (i : Nat) : IsRela a i ↔ IsRela b i := by
  unfold IsRela
  rw [h.ehdr.2.1]
  constructor
  · rintro ⟨h1, h2, h3⟩; rw [h.shdr h2] at h3; exact ⟨h1, h2, h3⟩
  · rintro ⟨h1, h2, h3⟩; rw [h.shdr h2]; exact ⟨h1, h2, h3⟩

theorem SameMeta.sym (h : SameMeta a b si) (j : Nat) (hj : j < (elfShdr b si).size / 24) :
    elfSym a ((elfShdr b si).offset + 24 * j) = elfSym b ((elfShdr b si).offset + 24 * j) := by
  apply elfSym_congr
  intro k h1 h2
  apply h.eq
  right; right; left
  unfold InSec
  omega

theorem elfRela_congr (a b : List Byte) (off : Nat) (h : ∀ k, off ≤ k → k < off + 24 → a[k]? = b[k]?) :
    elfRela a off = elfRela b off := by
  unfold elfRela
  rw [ldField_congr a b off 8 (fun k _ _ => h k (by omega) (by omega)),
    ldField_congr a b (off + 8) 8 (fun k _ _ => h k (by omega) (by omega)),
    ldField_congr a b (off + 16) 8 (fun k _ _ => h k (by omega) (by omega))]

theorem SameMeta.rela (h : SameMeta a b si) {i : Nat} (hi : IsRela b i) (j : Nat) (hj : j < (elfShdr b i).size / 24) :
    elfRela a ((elfShdr b i).offset + 24 * j) = relaOf b i j := by
  apply elfRela_congr
  intro k h1 h2
  apply h.eq
  right; right; right; right
  refine ⟨i, hi, ?_⟩
  unfold InSec
  omega

theorem SameMeta.name (R : RelocsOk w b si) (h : SameMeta a b si) {i : Nat} (h1 : 1 ≤ i) (hi : i < elfShnum b) :
    elfSecName a i = elfSecName b i := by
  unfold elfSecName
  rw [h.ehdr.2.2, h.shdr hi, h.shdr R.str.1]
  have hn := R.names i h1 hi
  have h0 := R.str.2.1
  symm
  apply cstr_drop_congr _ _ _ ((elfShdr b (elfShstrndx b)).offset + (elfShdr b (elfShstrndx b)).size - 1) (by omega) R.str.2.2
  intro k h1 h2
  symm
  apply h.eq
  right; right; right; left
  unfold InSec
  omega

theorem find_unique (l : List Nat) (p : Nat → Bool) (x : Nat) (hx : x ∈ l) (hp : p x = true)
    (hu : ∀ y ∈ l, p y = true → y = x) : l.find? p = some x := by
  cases h : l.find? p with
  | none => rw [List.find?_eq_none] at h; exact absurd hp (h x hx)
  | some y =>
    have := hu y (List.mem_of_find?_eq_some h) (by simpa using List.find?_some h)
    rw [this]

theorem mem_elfSecIdx (img : List Byte) (i : Nat) : i ∈ elfSecIdx img ↔ 1 ≤ i ∧ i < elfShnum img := by
  unfold elfSecIdx
  rw [List.mem_range'_1]
  omega

theorem SameMeta.symtab (R : RelocsOk w b si) (h : SameMeta a b si) (l : Bool) :
    (if l then lastSymtab a else firstSymtab a) = some si := by
  have hmem : si ∈ elfSecIdx a := by rw [mem_elfSecIdx, h.ehdr.2.1]; exact ⟨R.sym.1, R.sym.2.1⟩
  have hp : ((elfShdr a si).typ == 2) = true := by rw [h.shdr R.sym.2.1]; simp [R.sym.2.2]
  have hu : ∀ y ∈ elfSecIdx a, ((elfShdr a y).typ == 2) = true → y = si := by
    intro y hy hpy
    rw [mem_elfSecIdx, h.ehdr.2.1] at hy
    rw [h.shdr hy.2] at hpy
    exact R.one y hy.1 hy.2 (by simpa using hpy)
  cases l
  · exact find_unique _ _ _ hmem hp hu
  · exact find_unique _ _ _ (by simpa using hmem) hp (fun y hy => hu y (by simpa using hy))

/-- A relocation together with the ones before it. -/
abbrev ElfAnn := Nat × List (Rela Nat × Sym)

/-- Forget the annotation. -/
def elfForget (a : Rela ElfAnn) : Rela Nat := ⟨a.offset, a.typ.1, a.sym, a.addend⟩

/-- The relocations of section `i` before the `k`-th and their symbols, the nearest first. -/
def beforeOf (img : List Byte) (si i k : Nat) : List (Rela Nat × Sym) :=
  relasBefore (elfShdr img si).offset (elfShdr img i).offset k img

/-- The `k`-th relocation of section `i` with the ones before it. -/
def annOf (img : List Byte) (si i k : Nat) : Rela ElfAnn :=
  ⟨(relaOf img i k).offset, ((relaOf img i k).typ, beforeOf img si i k), (relaOf img i k).sym, (relaOf img i k).addend⟩

theorem elfForget_annOf (img : List Byte) (si i k : Nat) : elfForget (annOf img si i k) = relaOf img i k := rfl

/-- The body of the loop on annotated relocations. -/
def RelocArch.actAnn (ra : RelocArch) (sec : RelSec) (a : Rela ElfAnn) (s : Sym) (d : List Byte) : Act :=
  ra.act sec a.typ.2 (elfForget a) s d

/-- A relocation that does not end the loop and is no slot of the jump table. -/
def RelocArch.Simple (ra : RelocArch) (r : Rela Nat) (s : Sym) : Prop :=
  (∀ sec e d, ra.act sec e r s d ≠ .stop) ∧ ra.slot r s = false

theorem RelocArch.actAnn_local (ra : RelocArch) {w : Rela Nat → Nat} (hl : ∀ sec e, LocalAct (ra.act sec e) w) (sec : RelSec) :
    LocalAct (ra.actAnn sec) (fun a => w (elfForget a)) :=
  ⟨fun a s x y h => (hl sec a.typ.2).reads (elfForget a) s x y h, fun a s x bs h => (hl sec a.typ.2).writes (elfForget a) s x bs h⟩

theorem SameMeta.before (R : RelocsOk w b si) (h : SameMeta a b si) {i : Nat} (hi : IsRela b i) (k : Nat)
    (hk : k ≤ (elfShdr b i).size / 24) :
    relasBefore (elfShdr b si).offset (elfShdr b i).offset k a = beforeOf b si i k := by
  unfold beforeOf relasBefore
  apply List.map_congr_left
  intro j hj
  have hj : j < k := by simpa using hj
  have hjk : j < (elfShdr b i).size / 24 := by omega
  dsimp only
  rw [h.rela hi j hjk]
  show (_, _) = (relaOf b i j, elfSym b ((elfShdr b si).offset + 24 * (relaOf b i j).sym))
  rw [h.sym _ (R.rels i hi j hjk).1]

/-- The byte-level loop is the loop over the relocations of the unchanged file. -/
theorem relaLoop_eq (ra : RelocArch) (jbase : BitVec 64) (hl : ∀ sec e, LocalAct (ra.act sec e) w) (R : RelocsOk w b si) (i : Nat)
    (hi : IsRela b i) (hsl : ∀ k, k < (elfShdr b i).size / 24 → ra.slot (relaOf b i k) (symOf b si i k) = false) (syms : List Sym)
    (hsyms : ∀ j, j < (elfShdr b si).size / 24 → symAt syms j = elfSym b ((elfShdr b si).offset + 24 * j)) :
    ∀ (ks : List Nat) (img : List Byte) (t : Option JmpTable), (∀ k ∈ ks, k < (elfShdr b i).size / 24) → SameMeta img b si →
      relaLoop ra jbase (secOf b i) (elfShdr b si).offset (elfShdr b i).offset ks (img, t) =
        (((relocLoop (ra.actAnn (secOf b i)) (secOf b i) syms (ks.map (annOf b si i)) img).1, t),
          (relocLoop (ra.actAnn (secOf b i)) (secOf b i) syms (ks.map (annOf b si i)) img).2)
  | [], img, t, _, _ => rfl
  | k :: ks, img, t, hk, h => by
    have hk0 := hk k (by simp)
    unfold relaLoop
    rw [List.map_cons]
    unfold relocLoop
    dsimp only
    rw [h.rela hi k hk0, show (annOf b si i k).offset = (relaOf b i k).offset from rfl,
      show (annOf b si i k).sym = (relaOf b i k).sym from rfl]
    by_cases hge : (relaOf b i k).offset ≥ (secOf b i).size
    · rw [if_pos hge, if_pos hge]
    rw [if_neg hge, if_neg hge]
    obtain ⟨r1, r2⟩ := R.rels i hi k hk0
    have hs : elfSym img ((elfShdr b si).offset + 24 * (relaOf b i k).sym) = symAt syms (relaOf b i k).sym := by
      rw [hsyms _ r1, h.sym _ r1]
    have hns : ra.slot (relaOf b i k) (symAt syms (relaOf b i k).sym) = false := by
      rw [hsyms _ r1]; exact hsl k hk0
    rw [hs, hns, h.before R hi k (by omega)]
    simp only [Bool.false_eq_true, if_false]
    rw [show ra.actAnn (secOf b i) (annOf b si i k) = ra.act (secOf b i) (beforeOf b si i k) (relaOf b i k) from rfl]
    cases hact : ra.act (secOf b i) (beforeOf b si i k) (relaOf b i k) (symAt syms (relaOf b i k).sym)
        (img.drop ((secOf b i).fileOff + (relaOf b i k).offset)) with
    | fail => rfl
    | stop => rfl
    | write bs =>
      dsimp only
      have hlen := (hl (secOf b i) _).writes _ _ _ _ hact
      have ht := (R.target i hi).2.2
      have hfit : (secOf b i).fileOff + (relaOf b i k).offset + bs.length ≤ img.length := by rw [h.len]; omega
      apply relaLoop_eq ra jbase hl R i hi hsl syms hsyms ks _ _ (fun j hj => hk j (by simp [hj]))
      constructor
      · rw [pokeAt_length _ _ _ hfit, h.len]
      · intro j hj
        rw [← h.eq j hj]
        apply pokeAt_getElem?_out _ _ _ _ hfit
        have := R.avoid i hi j
        unfold InSec at this
        by_cases hc : j < (secOf b i).fileOff + (relaOf b i k).offset ∨ (secOf b i).fileOff + (relaOf b i k).offset + bs.length ≤ j
        · exact hc
        · exact absurd hj (this ⟨by simp only [secOf] at *; omega, by simp only [secOf] at *; omega⟩)

/-- The relocations of the sections in `done` have been applied to `img0`. -/
structure Relocated (ra : RelocArch) (w : Rela Nat → Nat) (img0 img : List Byte) (si : Nat) (done : Nat → Prop) : Prop where
  len : img.length = img0.length
  fields : ∀ i, IsRela img0 i → done i → ∀ k, k < (elfShdr img0 i).size / 24 → ∃ bs,
    ra.act (secOf img0 i) (beforeOf img0 si i k) (relaOf img0 i k) (symOf img0 si i k) (img0.drop (placeOf img0 i k)) = .write bs ∧
    bytesAt img (placeOf img0 i k) bs.length = bs
  other : ∀ j, (∀ i, IsRela img0 i → done i → ∀ k, k < (elfShdr img0 i).size / 24 →
      j < placeOf img0 i k ∨ placeOf img0 i k + w (relaOf img0 i k) ≤ j) → img[j]? = img0[j]?

theorem Relocated.sameMeta {ra : RelocArch} (R : RelocsOk w b si) {done : Nat → Prop} (h : Relocated ra w b a si done) : SameMeta a b si := by
  refine ⟨h.len, ?_⟩
  intro j hj
  apply h.other
  intro i hi _ k hk
  have r := R.rels i hi k hk
  by_cases hc : j < placeOf b i k ∨ placeOf b i k + w (relaOf b i k) ≤ j
  · exact hc
  · refine absurd hj (R.avoid i hi j ?_)
    unfold InSec
    simp only [placeOf, secOf] at *
    omega

/-- The loop over the relocations of one section, in terms of the image before. -/
theorem applyRelocateAdd_eq (ra : RelocArch) (jbase : BitVec 64) (hl : ∀ sec e, LocalAct (ra.act sec e) w) (R : RelocsOk w b si) (i : Nat)
    (hi : IsRela b i) (hsl : ∀ k, k < (elfShdr b i).size / 24 → ra.slot (relaOf b i k) (symOf b si i k) = false)
    (img : List Byte) (t : Option JmpTable) (M : SameMeta img b si) :
    ∃ syms : List Sym, (∀ j, j < (elfShdr b si).size / 24 → symAt syms j = elfSym b ((elfShdr b si).offset + 24 * j)) ∧
      applyRelocateAdd ra jbase i (img, t) =
        (((relocLoop (ra.actAnn (secOf b i)) (secOf b i) syms ((List.range ((elfShdr b i).size / 24)).map (annOf b si i)) img).1, t),
          (relocLoop (ra.actAnn (secOf b i)) (secOf b i) syms ((List.range ((elfShdr b i).size / 24)).map (annOf b si i)) img).2) := by
  have hT := R.target i hi
  have hsec : ({ fileOff := (elfShdr img (elfShdr img i).info).offset, size := (elfShdr img (elfShdr img i).info).size
                 addr := (elfShdr img (elfShdr img i).info).addr
                 isInfo := strcmp (elfSecName img (elfShdr img i).info) (lit ".kpatch.info") == 0 } : RelSec) = secOf b i := by
    unfold secOf
    rw [M.shdr hi.2.1, M.shdr hT.2.1, M.name R hT.1 hT.2.1]
  let syms : List Sym := (List.range ((elfShdr b si).size / 24)).map fun j => elfSym b ((elfShdr b si).offset + 24 * j)
  have hsyms : ∀ j, j < (elfShdr b si).size / 24 → symAt syms j = elfSym b ((elfShdr b si).offset + 24 * j) := by
    intro j hj
    simp [syms, symAt, hj]
  have heq : applyRelocateAdd ra jbase i (img, t) =
      (((relocLoop (ra.actAnn (secOf b i)) (secOf b i) syms ((List.range ((elfShdr b i).size / 24)).map (annOf b si i)) img).1, t),
        (relocLoop (ra.actAnn (secOf b i)) (secOf b i) syms ((List.range ((elfShdr b i).size / 24)).map (annOf b si i)) img).2) := by
    unfold applyRelocateAdd
    dsimp only
    rw [M.symtab R]
    dsimp only
    rw [hsec, M.shdr hi.2.1, M.shdr R.sym.2.1]
    exact relaLoop_eq ra jbase hl R i hi hsl syms hsyms _ img t (fun k hk => by simpa using hk) M
  exact ⟨syms, hsyms, heq⟩

/-- The bytes of a section that is not relocated yet are still the original ones. -/
theorem relocated_keeps {ra : RelocArch} (R : RelocsOk w b si) (i : Nat) (hi : IsRela b i) (img : List Byte) (done : Nat → Prop)
    (hnd : ¬ done i) (H : Relocated ra w b img si done) : ∀ j, InSec b (elfShdr b i).info j → img[j]? = b[j]? := by
  intro j hj
  apply H.other
  intro i' hi' hd' k hk
  have hne : i' ≠ i := fun hc => hnd (hc ▸ hd')
  have hap := R.apart i i' hi hi' hne.symm j
  have r := R.rels i' hi' k hk
  by_cases hc : j < placeOf b i' k ∨ placeOf b i' k + w (relaOf b i' k) ≤ j
  · exact hc
  · refine absurd ⟨hj, ?_⟩ hap
    unfold InSec
    simp only [placeOf, secOf] at *
    omega

theorem applyRelocateAdd_spec (ra : RelocArch) (jbase : BitVec 64) (hl : ∀ sec e, LocalAct (ra.act sec e) w) (R : RelocsOk w b si) (i : Nat)
    (hi : IsRela b i) (hns : ∀ k, k < (elfShdr b i).size / 24 → ra.Simple (relaOf b i k) (symOf b si i k))
    (img : List Byte) (t : Option JmpTable) (done : Nat → Prop) (hnd : ¬ done i) (H : Relocated ra w b img si done)
    (hok : (applyRelocateAdd ra jbase i (img, t)).2 = true) :
    Relocated ra w b (applyRelocateAdd ra jbase i (img, t)).1.1 si (fun j => done j ∨ j = i) ∧
      (applyRelocateAdd ra jbase i (img, t)).1.2 = t := by
  have M := H.sameMeta R
  have hT := R.target i hi
  obtain ⟨syms, hsyms, heq⟩ := applyRelocateAdd_eq ra jbase hl R i hi (fun k hk => (hns k hk).2) img t M
  rw [heq] at hok ⊢
  refine ⟨?_, rfl⟩
  dsimp only at hok ⊢
  have hmem : ∀ r ∈ (List.range ((elfShdr b i).size / 24)).map (annOf b si i), ∃ k, k < (elfShdr b i).size / 24 ∧ r = annOf b si i k := by
    intro r hr
    obtain ⟨k, hk, rfl⟩ := List.mem_map.1 hr
    exact ⟨k, by simpa using hk, rfl⟩
  obtain ⟨h1, h2, h3⟩ := relocLoop_spec (ra.actAnn (secOf b i)) _ (ra.actAnn_local hl _) (secOf b i) syms img (by rw [H.len]; exact hT.2.2)
    ((List.range ((elfShdr b i).size / 24)).map (annOf b si i)) img rfl
    (by intro r hr; obtain ⟨k, hk, rfl⟩ := hmem r hr; exact (R.rels i hi k hk).2)
    (by
      rw [List.pairwise_map, List.pairwise_iff_getElem]
      intro x y hx hy hxy
      simp only [List.getElem_range]
      exact R.disj i hi x y hxy (by simpa using hy))
    (by
      intro r hr d
      obtain ⟨k, hk, rfl⟩ := hmem r hr
      have := (hns k hk).1 (secOf b i) (beforeOf b si i k) d
      unfold symOf at this
      rw [← hsyms _ (R.rels i hi k hk).1] at this
      exact this) hok
  generalize (relocLoop (ra.actAnn (secOf b i)) (secOf b i) syms ((List.range ((elfShdr b i).size / 24)).map (annOf b si i)) img).1 = img' at *
  have hold := relocated_keeps R i hi img done hnd H
  constructor
  · rw [h1, H.len]
  · intro i' hi' hd' k hk
    by_cases hii : i' = i
    · subst hii
      obtain ⟨_, bs, hb1, hb2⟩ := h2 (annOf b si i' k) (List.mem_map.2 ⟨k, by simpa using hk, rfl⟩)
      refine ⟨bs, ?_, hb2⟩
      rw [← hb1]
      have r := R.rels i' hi k hk
      rw [show symOf b si i' k = symAt syms (relaOf b i' k).sym by unfold symOf; rw [hsyms _ r.1]]
      apply (hl (secOf b i') (beforeOf b si i' k)).reads
      apply bytesAt_congr b img
      intro j hj1 hj2
      symm
      apply hold
      unfold InSec
      simp only [placeOf, secOf] at *
      omega
    · have hd : done i' := by rcases hd' with h | h; exact h; exact absurd h hii
      obtain ⟨bs, hb1, hb2⟩ := H.fields i' hi' hd k hk
      refine ⟨bs, hb1, ?_⟩
      rw [← hb2]
      rw [hb2]
      conv_rhs => rw [← hb2]
      apply bytesAt_congr
      intro j hj1 hj2
      apply h3
      intro r hr
      obtain ⟨k', hk', rfl⟩ := hmem r hr
      have hlen := (hl (secOf b i') _).writes _ _ _ _ hb1
      have r' := R.rels i' hi' k hk
      have r := R.rels i hi k' hk'
      have hap := R.apart i i' hi hi' (Ne.symm hii) j
      unfold InSec at hap
      show j < (secOf b i).fileOff + (relaOf b i k').offset ∨ (secOf b i).fileOff + (relaOf b i k').offset + w (relaOf b i k') ≤ j
      simp only [placeOf, secOf] at *
      omega
  · intro j hj
    rw [h3 j (by
      intro r hr
      obtain ⟨k, hk, rfl⟩ := hmem r hr
      exact hj i hi (.inr rfl) k hk)]
    exact H.other j fun i' hi' hd' => hj i' hi' (.inl hd')

theorem relocateElf_spec (ra : RelocArch) (jbase : BitVec 64) (hl : ∀ sec e, LocalAct (ra.act sec e) w) (R : RelocsOk w b si)
    (hns : ∀ i, IsRela b i → ∀ k, k < (elfShdr b i).size / 24 → ra.Simple (relaOf b i k) (symOf b si i k)) :
    ∀ (is : List Nat) (img : List Byte) (t : Option JmpTable) (done : Nat → Prop), is.Nodup → (∀ i ∈ is, ¬ done i) →
      (∀ i ∈ is, 1 ≤ i ∧ i < elfShnum b) → Relocated ra w b img si done → (relocateElf ra jbase is (img, t)).2 = true →
      Relocated ra w b (relocateElf ra jbase is (img, t)).1.1 si (fun j => done j ∨ j ∈ is) ∧ (relocateElf ra jbase is (img, t)).1.2 = t
  | [], img, t, done, _, _, _, H, _ => by
    simp only [relocateElf, List.not_mem_nil, or_false]; exact ⟨H, trivial⟩
  | i :: is, img, t, done, hdup, hnd, hin, H, hok => by
    have hd := List.nodup_cons.1 hdup
    have hi := hin i (by simp)
    have M := H.sameMeta R
    have he : (fun j => (done j ∨ j = i) ∨ j ∈ is) = fun j => done j ∨ j ∈ i :: is := by
      funext j
      simp [List.mem_cons, or_assoc]
    unfold relocateElf at hok ⊢
    have hnd' : ∀ j ∈ is, ¬ (done j ∨ j = i) := by
      intro j hj
      rintro (hc | hc)
      · exact hnd j (by simp [hj]) hc
      · exact hd.1 (hc ▸ hj)
    by_cases ht : (elfShdr img i).typ = 4
    · rw [if_pos ht] at hok ⊢
      dsimp only at hok ⊢
      have hr : IsRela b i := ⟨hi.1, hi.2, by rw [← M.shdr hi.2]; exact ht⟩
      cases hq : (applyRelocateAdd ra jbase i (img, t)).2 with
      | false => rw [hq] at hok; simp at hok
      | true =>
        rw [hq] at hok
        simp only [Bool.not_true, Bool.false_eq_true, if_false] at hok ⊢
        obtain ⟨hA, hT⟩ := applyRelocateAdd_spec ra jbase hl R i hr (hns i hr) img t done (hnd i (by simp)) H hq
        rw [← Prod.eta (applyRelocateAdd ra jbase i (img, t)).1, hT] at hok ⊢
        have := relocateElf_spec ra jbase hl R hns is _ t _ hd.2 hnd' (fun j hj => hin j (by simp [hj])) hA hok
        rw [he] at this
        exact this
    · rw [if_neg ht] at hok ⊢
      by_cases h9 : (elfShdr img 0).typ = 9
      · rw [if_pos h9] at hok; simp at hok
      · rw [if_neg h9] at hok ⊢
        have hnr : ¬ IsRela b i := fun hc => ht (by rw [M.shdr hi.2]; exact hc.2.2)
        have H' : Relocated ra w b img si (fun j => done j ∨ j = i) := by
          refine ⟨H.len, ?_, ?_⟩
          · intro i' hi' hd'
            rcases hd' with h | h
            · exact H.fields i' hi' h
            · exact absurd (h ▸ hi') hnr
          · intro j hj
            exact H.other j fun i' hi' hd' => hj i' hi' (.inl hd')
        have := relocateElf_spec ra jbase hl R hns is _ t _ hd.2 hnd' (fun j hj => hin j (by simp [hj])) H' hok
        rw [he] at this
        exact this

theorem applyRelocateAdd_runs (ra : RelocArch) (jbase : BitVec 64) (hl : ∀ sec e, LocalAct (ra.act sec e) w) (R : RelocsOk w b si) (i : Nat)
    (hi : IsRela b i) (hsl : ∀ k, k < (elfShdr b i).size / 24 → ra.slot (relaOf b i k) (symOf b si i k) = false)
    (hfit : ∀ k, k < (elfShdr b i).size / 24 → (relaOf b i k).offset < (secOf b i).size ∧
      ra.act (secOf b i) (beforeOf b si i k) (relaOf b i k) (symOf b si i k) (b.drop (placeOf b i k)) ≠ .fail)
    (img : List Byte) (t : Option JmpTable) (done : Nat → Prop) (hnd : ¬ done i) (H : Relocated ra w b img si done) :
    (applyRelocateAdd ra jbase i (img, t)).2 = true := by
  have hT := R.target i hi
  obtain ⟨syms, hsyms, heq⟩ := applyRelocateAdd_eq ra jbase hl R i hi hsl img t (H.sameMeta R)
  have hold := relocated_keeps R i hi img done hnd H
  rw [heq]
  have hmem : ∀ r ∈ (List.range ((elfShdr b i).size / 24)).map (annOf b si i), ∃ k, k < (elfShdr b i).size / 24 ∧ r = annOf b si i k := by
    intro r hr
    obtain ⟨k, hk, rfl⟩ := List.mem_map.1 hr
    exact ⟨k, by simpa using hk, rfl⟩
  refine relocLoop_runs (ra.actAnn (secOf b i)) _ (ra.actAnn_local hl _) (secOf b i) syms img (by rw [H.len]; exact hT.2.2)
    ((List.range ((elfShdr b i).size / 24)).map (annOf b si i)) img rfl
    (by intro r hr; obtain ⟨k, hk, rfl⟩ := hmem r hr; exact (R.rels i hi k hk).2)
    (by
      rw [List.pairwise_map, List.pairwise_iff_getElem]
      intro x y hx hy hxy
      simp only [List.getElem_range]
      exact R.disj i hi x y hxy (by simpa using hy))
    ?_
  intro r hr
  obtain ⟨k, hk, rfl⟩ := hmem r hr
  obtain ⟨f1, f2⟩ := hfit k hk
  refine ⟨f1, ?_⟩
  have r := R.rels i hi k hk
  rw [show symOf b si i k = symAt syms (relaOf b i k).sym by unfold symOf; rw [hsyms _ r.1]] at f2
  rw [(ra.actAnn_local hl _).reads _ _ _ (b.drop (placeOf b i k))]
  · exact f2
  · apply bytesAt_congr img b
    intro j hj1 hj2
    apply hold
    unfold InSec
    change (secOf b i).fileOff + (relaOf b i k).offset ≤ j at hj1
    change j < (secOf b i).fileOff + (relaOf b i k).offset + w (relaOf b i k) at hj2
    simp only [secOf] at *
    omega

theorem relocateElf_runs (ra : RelocArch) (jbase : BitVec 64) (hl : ∀ sec e, LocalAct (ra.act sec e) w) (R : RelocsOk w b si)
    (hns : ∀ i, IsRela b i → ∀ k, k < (elfShdr b i).size / 24 → ra.Simple (relaOf b i k) (symOf b si i k))
    (h0 : (elfShdr b 0).typ ≠ 9)
    (hfit : ∀ i, IsRela b i → ∀ k, k < (elfShdr b i).size / 24 → (relaOf b i k).offset < (secOf b i).size ∧
      ra.act (secOf b i) (beforeOf b si i k) (relaOf b i k) (symOf b si i k) (b.drop (placeOf b i k)) ≠ .fail) :
    ∀ (is : List Nat) (img : List Byte) (t : Option JmpTable) (done : Nat → Prop), is.Nodup → (∀ i ∈ is, ¬ done i) →
      (∀ i ∈ is, 1 ≤ i ∧ i < elfShnum b) → Relocated ra w b img si done → (relocateElf ra jbase is (img, t)).2 = true
  | [], img, t, done, _, _, _, H => rfl
  | i :: is, img, t, done, hdup, hnd, hin, H => by
    have hd := List.nodup_cons.1 hdup
    have hi := hin i (by simp)
    have M := H.sameMeta R
    have hnd' : ∀ j ∈ is, ¬ (done j ∨ j = i) := by
      intro j hj
      rintro (hc | hc)
      · exact hnd j (by simp [hj]) hc
      · exact hd.1 (hc ▸ hj)
    have hpos : 0 < elfShnum b := by omega
    unfold relocateElf
    by_cases ht : (elfShdr img i).typ = 4
    · rw [if_pos ht]
      have hr : IsRela b i := ⟨hi.1, hi.2, by rw [← M.shdr hi.2]; exact ht⟩
      have hq := applyRelocateAdd_runs ra jbase hl R i hr (fun k hk => (hns i hr k hk).2) (hfit i hr) img t done (hnd i (by simp)) H
      obtain ⟨hA, hT⟩ := applyRelocateAdd_spec ra jbase hl R i hr (hns i hr) img t done (hnd i (by simp)) H hq
      dsimp only
      rw [hq, ← Prod.eta (applyRelocateAdd ra jbase i (img, t)).1, hT]
      exact relocateElf_runs ra jbase hl R hns h0 hfit is _ t _ hd.2 hnd' (fun j hj => hin j (by simp [hj])) hA
    · rw [if_neg ht, if_neg (by rw [M.shdr hpos]; exact h0)]
      have hnr : ¬ IsRela b i := fun hc => ht (by rw [M.shdr hi.2]; exact hc.2.2)
      refine relocateElf_runs ra jbase hl R hns h0 hfit is _ t (fun j => done j ∨ j = i) hd.2 hnd' (fun j hj => hin j (by simp [hj])) ⟨H.len, ?_, ?_⟩
      · intro i' hi' hd'
        rcases hd' with h | h
        · exact H.fields i' hi' h
        · exact absurd (h ▸ hi') hnr
      · intro j hj
        exact H.other j fun i' hi' hd' => hj i' hi' (.inl hd')

end

end Verif
