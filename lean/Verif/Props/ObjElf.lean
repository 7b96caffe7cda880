import Verif.Proof.ObjElf
import Verif.Props.Symbols
/-
C80: a library symbol of a patch gets the address the library has it at in the memory of the process.
C81: library symbols are looked for in the libraries of the process and not in its program.
-/
namespace Verif

/-! ## Libraries -/

/-- The file name of one of the libraries of glibc that have an interpreter: `libc.so.6`, `libc-2.28.so`, ... -/
def GlibcName (name : String) : Prop :=
  ∃ lib ∈ ["libc", "libpthread", "libdl"], (∃ ver, name = lib ++ ".so." ++ ver) ∨ ∃ ver, name = lib ++ "-" ++ ver ++ ".so"

/-- What the tool takes for a shared library: a dynamic object that names no interpreter, or one of the
libraries of glibc. -/
def TakenForLibrary (name : String) (typ : Nat) (phdrs : List ElfPhdr) : Prop :=
  typ = 3 ∧ ((∀ p ∈ phdrs, p.typ ≠ 3) ∨ GlibcName name)

theorem interpName_iff (lib name : String) :
    interpName lib name.toList = true ↔
      (∃ ver, name = lib ++ ".so." ++ ver) ∨ ∃ ver, name = lib ++ "-" ++ ver ++ ".so" := by
  unfold interpName
  simp only [Bool.or_eq_true, Bool.and_eq_true, List.isPrefixOf_iff_prefix]
  constructor
  · rintro (⟨t, ht⟩ | ⟨⟨t, ht⟩, hs⟩)
    · left
      refine ⟨String.ofList t, ?_⟩
      rw [← String.toList_inj, ← ht]
      simp
    · right
      have hlen : 3 ≤ name.toList.length ∧ name.toList.drop (name.toList.length - 3) = ".so".toList := by
        have h3 := hs.length_le
        rw [List.length_drop] at h3
        have : ".so".toList.length = 3 := rfl
        rw [this] at h3
        refine ⟨by omega, ?_⟩
        symm
        apply hs.eq_of_length
        rw [List.length_drop, this]
        omega
      have hd : ".so".toList = ['.', 's', 'o'] := rfl
      have htl : 3 ≤ t.length := by
        by_contra hc
        have e := hlen.2
        rw [hd] at e
        rw [← ht] at e hlen
        have hl : ((lib ++ "-").toList ++ t).length = lib.toList.length + 1 + t.length := by simp; omega
        rw [hl] at e hlen
        -- the last but `t.length` character is the hyphen
        have hk : (List.drop (lib.toList.length + 1 + t.length - 3) ((lib ++ "-").toList ++ t))[2 - t.length]? = some '-' := by
          rw [List.getElem?_drop, show lib.toList.length + 1 + t.length - 3 + (2 - t.length) = lib.toList.length by omega]
          rw [List.getElem?_append_left (by simp)]
          simp
        rw [e] at hk
        have : t.length = 0 ∨ t.length = 1 ∨ t.length = 2 := by omega
        rcases this with h | h | h <;> rw [h] at hk <;> simp at hk
      refine ⟨String.ofList (t.take (t.length - 3)), ?_⟩
      rw [← String.toList_inj]
      have e := hlen.2
      have hl : ((lib ++ "-").toList ++ t).length = (lib ++ "-").toList.length + t.length := List.length_append
      rw [← ht, List.drop_append, hl, List.drop_of_length_le (l := (lib ++ "-").toList) (by omega), List.nil_append,
        show (lib ++ "-").toList.length + t.length - 3 - (lib ++ "-").toList.length = t.length - 3 by omega] at e
      rw [← ht]
      conv_lhs => rw [← List.take_append_drop (t.length - 3) t, e]
      simp
  · rintro (⟨ver, rfl⟩ | ⟨ver, rfl⟩)
    · left
      exact ⟨ver.toList, by simp⟩
    · right
      refine ⟨⟨ver.toList ++ ".so".toList, by simp⟩, ?_⟩
      have : (lib ++ "-" ++ ver ++ ".so").toList = (lib ++ "-" ++ ver).toList ++ ['.', 's', 'o'] := by simp
      rw [this, List.length_append, List.drop_append_of_le_length (by simp)]
      simp

theorem interpException_iff (name : String) : interpException name = true ↔ GlibcName name := by
  unfold interpException GlibcName
  simp only [Bool.or_eq_true, interpName_iff]
  simp [or_assoc]

/-- The decision of the tool. -/
theorem isSharedLib_iff (name : String) (h : ObjHdr) :
    isSharedLib name h = true ↔ TakenForLibrary name (ehdrType h.ehdr) h.phdrs := by
  unfold isSharedLib TakenForLibrary
  by_cases h3 : ehdrType h.ehdr = 3
  · rw [if_neg (by simpa using h3)]
    simp only [h3, true_and, Bool.not_eq_true', List.any_eq_false, Bool.and_eq_true, beq_iff_eq, Bool.not_eq_true']
    rw [← interpException_iff]
    constructor
    · intro hx
      cases hi : interpException name
      · left; intro p hp hpt; exact hx p hp ⟨hpt, hi⟩
      · right; rfl
    · rintro (hx | hx) p hp ⟨hpt, hi⟩
      · exact hx p hp hpt
      · rw [hx] at hi; simp at hi
  · rw [if_pos h3]
    simp [h3]

/-! ## Objects in memory -/

/-- A program or library that is loaded into a process. -/
structure ElfImage where
  typ : Nat
  phdrs : List ElfPhdr
  /-- run-time minus link-time address -/
  load : BitVec 64
  /-- the dynamic symbols, if it has a dynamic section -/
  syms : Option (List DynSym)

/-- The object of the memory map is the loaded image: its headers are at the start of its first mapping, every
mapping is the memory of exactly one of its segments, and its symbols are where its dynamic section says, as glibc leaves it, with the string table directly behind the symbols. -/
structure LoadedElf (a : Arch) (page : BitVec 64) (m : Mem) (o : Obj) (x : ElfImage) : Prop where
  elf : o.isElf = true
  name : kernelName o.name = false
  headers : ∃ v, o.vmas.head? = some v ∧ HeadersIn m v.start x.typ x.phdrs ∧ LoadOffset page v.start x.phdrs x.load
  wf : WellFormedPhdrs (x.phdrs.map ElfPhdr.toPhdr)
  mapped : ∀ w ∈ o.vmas, w.prot ≠ 0 → ∃ start memsz filesz flags,
    Segment (x.phdrs.map ElfPhdr.toPhdr) start memsz filesz flags ∧ Maps page x.load w.toOVma start filesz flags ∧
    ∀ st m f fl, Segment (x.phdrs.map ElfPhdr.toPhdr) st m f fl → Maps page x.load w.toOVma st f fl → st = start ∧ m = memsz
  symbols : match x.syms with
    | none => ∀ p ∈ x.phdrs, p.typ ≠ 2
    | some syms => SymbolsIn (glibcRelocates a) 0 m x.load x.phdrs syms

/-- The link-time address `v` of the image is in an accessible mapping of the object. -/
def ElfImage.Covers (x : ElfImage) (page : BitVec 64) (o : Obj) (v : BitVec 64) : Prop :=
  v ≠ 0#64 ∧ ∃ w ∈ o.vmas, w.prot ≠ 0 ∧ ∃ start memsz filesz flags,
    Segment (x.phdrs.map ElfPhdr.toPhdr) start memsz filesz flags ∧
    Maps page x.load w.toOVma start filesz flags ∧ start ≤ v ∧ v < start + memsz

theorem foldl_min (l : List Phdr) : ∀ (m0 : BitVec 64),
    let r := l.foldl (fun m p => if p.typ = .load then (if p.vaddr < m then p.vaddr else m) else m) m0
    r ≤ m0 ∧ (∀ p ∈ l, p.typ = .load → r ≤ p.vaddr) ∧ (r = m0 ∨ ∃ p ∈ l, p.typ = .load ∧ r = p.vaddr) := by
  induction l with
  | nil => intro m0; exact ⟨BitVec.le_refl _, by simp, Or.inl rfl⟩
  | cons q l ih =>
    intro m0
    dsimp only [List.foldl_cons]
    by_cases hq : q.typ = .load
    · rw [if_pos hq]
      by_cases hlt : q.vaddr < m0
      · rw [if_pos hlt]
        obtain ⟨h1, h2, h3⟩ := ih q.vaddr
        refine ⟨BitVec.le_trans h1 (BitVec.le_of_lt hlt), ?_, ?_⟩
        · intro p hp ht
          rcases List.mem_cons.1 hp with rfl | hp
          · exact h1
          · exact h2 p hp ht
        · rcases h3 with h | ⟨p, hp, h⟩
          · exact Or.inr ⟨q, by simp, hq, h⟩
          · exact Or.inr ⟨p, by simp [hp], h⟩
      · rw [if_neg hlt]
        obtain ⟨h1, h2, h3⟩ := ih m0
        refine ⟨h1, ?_, ?_⟩
        · intro p hp ht
          rcases List.mem_cons.1 hp with rfl | hp
          · exact BitVec.le_trans h1 (BitVec.not_lt.1 hlt)
          · exact h2 p hp ht
        · rcases h3 with h | ⟨p, hp, h⟩
          · exact Or.inl h
          · exact Or.inr ⟨p, by simp [hp], h⟩
    · rw [if_neg hq]
      obtain ⟨h1, h2, h3⟩ := ih m0
      refine ⟨h1, ?_, ?_⟩
      · intro p hp ht
        rcases List.mem_cons.1 hp with rfl | hp
        · exact absurd ht hq
        · exact h2 p hp ht
      · rcases h3 with h | ⟨p, hp, h⟩
        · exact Or.inl h
        · exact Or.inr ⟨p, by simp [hp], h⟩

theorem toPhdr_load {p : ElfPhdr} : p.toPhdr.typ = .load ↔ p.typ = 1 := by
  unfold ElfPhdr.toPhdr
  dsimp only
  by_cases h : p.typ = 1
  · simp [h]
  · rw [if_neg h]; split <;> simp [h]

theorem lowestLoad_eq (phdrs : List ElfPhdr) (p : ElfPhdr) (hp : p ∈ phdrs) (ht : p.typ = 1)
    (hmin : ∀ q ∈ phdrs, q.typ = 1 → p.vaddr ≤ q.vaddr) : lowestLoad (phdrs.map ElfPhdr.toPhdr) = p.vaddr := by
  obtain ⟨h1, h2, h3⟩ := foldl_min (phdrs.map ElfPhdr.toPhdr) (BitVec.allOnes 64)
  have hle : lowestLoad (phdrs.map ElfPhdr.toPhdr) ≤ p.vaddr :=
    h2 p.toPhdr (List.mem_map_of_mem hp) (toPhdr_load.2 ht)
  apply BitVec.le_antisymm hle
  rcases h3 with h | ⟨q, hq, hqt, h⟩
  · show p.vaddr ≤ List.foldl _ _ _
    rw [h, BitVec.le_def]
    have := p.vaddr.isLt
    simp only [BitVec.toNat_allOnes]
    omega
  · show p.vaddr ≤ List.foldl _ _ _
    rw [h]
    obtain ⟨q', hq', rfl⟩ := List.mem_map.1 hq
    exact hmin q' hq' (toPhdr_load.1 hqt)

theorem matchVmas_complete (page load : BitVec 64) (M : List Phdr) : ∀ (vmas : List OVma),
    (∀ o ∈ vmas, o.prot ≠ 0 → ∃ p ∈ M, matchPhdr page load p o = true) → (matchVmas page load M vmas).2 = true
  | [], _ => rfl
  | o :: os, h => by
    have ih := matchVmas_complete page load M os (fun x hx => h x (by simp [hx]))
    unfold matchVmas
    by_cases hp : o.prot = 0
    · rw [if_pos hp]; exact ih
    · rw [if_neg hp]
      cases hf : M.find? fun p => matchPhdr page load p o with
      | none =>
        obtain ⟨p, hpM, hm⟩ := h o (by simp) hp
        rw [List.find?_eq_none] at hf
        exact absurd hm (hf p hpM)
      | some p => exact ih

/-- Mapping an object of the process. -/
theorem mapObject_ok {a : Arch} {page : BitVec 64} {m : Mem} {o : Obj} {x : ElfImage} {lim : Nat}
    {qsort : List Phdr → List Phdr} (H : LoadedElf a page m o x) (hlim : 2 ^ 64 ≤ lim)
    (hq : PhdrSorted (qsort ((x.phdrs.map ElfPhdr.toPhdr).filter fun p => decide (p.typ ≠ .other)))
      ((x.phdrs.map ElfPhdr.toPhdr).filter fun p => decide (p.typ ≠ .other))) :
    ∃ y, mapObject a lim m qsort page o = some y ∧ (y.lib.shared = true ↔ TakenForLibrary o.name x.typ x.phdrs) ∧
      y.lib.dyn = x.syms ∧ ∀ v, x.Covers page o v → vaddr2addr y.lib.vmas v = v + x.load := by
  obtain ⟨v0, hv0, hh, p, hp, hpt, hpmin, hload⟩ := H.headers
  obtain ⟨h, hob, ht, hph⟩ := objHeaders_ok (lim := lim) hh (by
    have := hh.phnum.1; omega)
  have hlow := lowestLoad_eq x.phdrs p hp hpt hpmin
  have hne : lowestLoad (x.phdrs.map ElfPhdr.toPhdr) ≠ BitVec.allOnes 64 := foldl_lowest _ _ (Or.inr H.wf.some_load)
  have hl : ∀ vmas, (parseProgramHeader qsort page (x.phdrs.map ElfPhdr.toPhdr) (BitVec.ofNat 64 v0.start)
      (BitVec.allOnes 64) vmas).load = x.load := by
    intro vmas
    unfold parseProgramHeader
    rw [if_neg hne]
    dsimp only
    split <;> (dsimp only; rw [hlow, hload])
  have hmem : ∀ w ∈ o.vmas.map Mapping.toOVma, ∃ u ∈ o.vmas, w = u.toOVma := by
    intro w hw; obtain ⟨u, hu, rfl⟩ := List.mem_map.1 hw; exact ⟨u, hu, rfl⟩
  have hrv : (parseProgramHeader qsort page (x.phdrs.map ElfPhdr.toPhdr) (BitVec.ofNat 64 v0.start)
      (BitVec.allOnes 64) (o.vmas.map Mapping.toOVma)).rv = 0 := by
    obtain ⟨M, h2, h3, _, h5⟩ := parse_wf qsort page (x.phdrs.map ElfPhdr.toPhdr) (BitVec.ofNat 64 v0.start)
      (BitVec.allOnes 64) (o.vmas.map Mapping.toOVma) H.wf hq
    rw [h5, hl, matchVmas_complete]
    · rfl
    · intro w hw hprot
      obtain ⟨u, hu, rfl⟩ := hmem w hw
      obtain ⟨st, ms, fs, fl, hseg, hmap, _⟩ := H.mapped u hu hprot
      obtain ⟨q, hqM, rfl, rfl, rfl, rfl⟩ := h3 _ _ _ _ hseg
      refine ⟨q, hqM, ?_⟩
      unfold matchPhdr
      simp only [Bool.and_eq_true, decide_eq_true_eq]
      exact ⟨⟨hmap.1.symm, hmap.2.1.symm⟩, hmap.2.2.symm⟩
  have hhead : o.vmas.head? = some v0 := hv0
  refine ⟨⟨{ shared := isSharedLib o.name h, dyn := x.syms, vmas := (parseProgramHeader qsort page
    (x.phdrs.map ElfPhdr.toPhdr) (BitVec.ofNat 64 v0.start) (BitVec.allOnes 64) (o.vmas.map Mapping.toOVma)).vmas },
    x.load⟩, ?_, ?_, ?_, ?_⟩
  · unfold mapObject
    rw [H.elf, H.name, if_neg (by simp), hhead]
    dsimp only
    rw [hob]
    dsimp only
    rw [hph, hrv, if_neg (by omega), hl]
    have hd : readDynsym a lim m x.load x.phdrs = x.syms := by
      have hs := H.symbols
      cases hsy : x.syms with
      | none =>
        rw [hsy] at hs
        unfold readDynsym
        have : x.phdrs.find? (fun p => p.typ == 2) = none := by
          rw [List.find?_eq_none]; intro q hq; simpa using hs q hq
        rw [this]
      | some syms =>
        rw [hsy] at hs
        exact readDynsym_ok hs hlim
    rw [hd]
  · rw [isSharedLib_iff, ht, hph]
  · rfl
  · rintro v ⟨hv0, w, hw, hprot, st, ms, fs, fl, hseg, hmap, h1, h2⟩
    have hfresh : ∀ o' ∈ o.vmas.map Mapping.toOVma, o'.inelfStart = 0#64 ∧ o'.inelfEnd = 0#64 := by
      intro o' ho'; obtain ⟨u, _, rfl⟩ := hmem o' ho'; exact ⟨rfl, rfl⟩
    have := C32_mapped_is_resolved_partial qsort page (x.phdrs.map ElfPhdr.toPhdr) (BitVec.ofNat 64 v0.start)
      (BitVec.allOnes 64) (o.vmas.map Mapping.toOVma) H.wf hq hfresh hrv w.toOVma (List.mem_map_of_mem hw) hprot
      st ms fs fl hseg (by rw [hl]; exact hmap) (by
        rw [hl]
        obtain ⟨st', ms', fs', fl', hseg', hmap', huniq⟩ := H.mapped w hw hprot
        obtain ⟨e1, e2⟩ := huniq _ _ _ _ hseg hmap
        intro s2 m2 f2 fl2 g1 g2
        obtain ⟨e3, e4⟩ := huniq _ _ _ _ g1 g2
        exact ⟨e3.trans e1.symm, e4.trans e2.symm⟩) v hv0 h1 h2
    rw [hl] at this
    exact this

/-- An object of the memory map is a loaded image, or nothing that could be searched for symbols. -/
def ObjectIs (a : Arch) (page : BitVec 64) (m : Mem) (o : Obj) : Option ElfImage → Prop
  | none => kernelName o.name = true ∨ o.isElf = false
  | some x => LoadedElf a page m o x

/-- The object is taken for a library and defines the symbol. -/
def Provides (o : Obj) (x : Option ElfImage) (name : CStr) : Prop :=
  ∃ i, x = some i ∧ TakenForLibrary o.name i.typ i.phdrs ∧ ∃ syms t v, i.syms = some syms ∧ Defines syms name t v

/-- What the C library promises of its sort, for the tables of the object. -/
def SortsTables (qsortP : List Phdr → List Phdr) (qsortS : List DynSym → List DynSym) (x : Option ElfImage) : Prop :=
  ∀ i, x = some i →
    PhdrSorted (qsortP ((i.phdrs.map ElfPhdr.toPhdr).filter fun p => decide (p.typ ≠ .other)))
      ((i.phdrs.map ElfPhdr.toPhdr).filter fun p => decide (p.typ ≠ .other)) ∧
    ∀ syms, i.syms = some syms → SortedBy symNameCmp (qsortS syms) syms

theorem symbols_names {rel : Bool} {gap : Nat} {m : Mem} {load : BitVec 64} {phdrs : List ElfPhdr} {syms : List DynSym}
    (H : SymbolsIn rel gap m load phdrs syms) : NamesOk syms := by
  obtain ⟨p, entries, symtab, strtab, strsz, _, _, _, _, _, _, _, _, _, _, _, hsyms⟩ := H.tables
  intro s hs
  obtain ⟨k, hk, rfl⟩ := List.getElem_of_mem hs
  exact (hsyms k _ (List.getElem?_eq_getElem hk)).name.1

theorem mapObject_is {a : Arch} {page : BitVec 64} {m : Mem} {o : Obj} {x : Option ElfImage} {lim : Nat}
    {qsortP : List Phdr → List Phdr} {qsortS : List DynSym → List DynSym} (H : ObjectIs a page m o x) (hlim : 2 ^ 64 ≤ lim)
    (hq : SortsTables qsortP qsortS x) :
    ∃ y, mapObject a lim m qsortP page o = some y ∧ (∀ name, y.lib.Provides name ↔ Provides o x name) ∧
      (∀ t, y.lib.dyn = some t → SortedBy symNameCmp (qsortS t) t ∧ NamesOk t) ∧
      ∀ i, x = some i → y.lib.dyn = i.syms ∧ ∀ v, i.Covers page o v → vaddr2addr y.lib.vmas v = v + i.load := by
  cases x with
  | none =>
    refine ⟨⟨{ shared := false, dyn := none, vmas := o.vmas.map Mapping.toOVma }, BitVec.allOnes 64⟩, ?_, ?_, ?_, ?_⟩
    · unfold mapObject
      rw [if_pos]
      rcases H with h | h <;> simp [h]
    · intro name
      constructor
      · rintro ⟨h, _⟩; simp at h
      · rintro ⟨i, h, _⟩; simp at h
    · intro t h; simp at h
    · intro i h; simp at h
  | some x =>
    have H : LoadedElf a page m o x := H
    obtain ⟨y, h1, h2, h3, h4⟩ := mapObject_ok H hlim (hq x rfl).1
    refine ⟨y, h1, ?_, ?_, ?_⟩
    · intro name
      constructor
      · rintro ⟨hs, table, t, v, hd, hdef⟩
        exact ⟨x, rfl, h2.1 hs, table, t, v, by rw [← h3, hd], hdef⟩
      · rintro ⟨i, hi, hl, syms, t, v, hd, hdef⟩
        cases hi
        exact ⟨h2.2 hl, syms, t, v, by rw [h3, hd], hdef⟩
    · intro t ht
      rw [h3] at ht
      refine ⟨(hq x rfl).2 t ht, ?_⟩
      have := H.symbols
      rw [ht] at this
      exact symbols_names this
    · intro i hi
      cases hi
      exact ⟨h3, h4⟩

theorem mapObjects_append {a : Arch} {lim : Nat} {m : Mem} {qsort : List Phdr → List Phdr} {page : BitVec 64}
    (xs ys : List Obj) : mapObjects a lim m qsort page (xs ++ ys) =
      (mapObjects a lim m qsort page xs).bind fun u => (mapObjects a lim m qsort page ys).map (u ++ ·) := by
  induction xs with
  | nil => simp [mapObjects]
  | cons o xs ih =>
    rw [List.cons_append]
    simp only [mapObjects]
    cases mapObject a lim m qsort page o with
    | none => rfl
    | some x =>
      dsimp only
      rw [ih]
      cases mapObjects a lim m qsort page xs with
      | none => rfl
      | some u =>
        cases mapObjects a lim m qsort page ys with
        | none => rfl
        | some w => rfl

theorem mapObjects_ok {a : Arch} {page : BitVec 64} {m : Mem} {lim : Nat}
    {qsortP : List Phdr → List Phdr} {qsortS : List DynSym → List DynSym} (hlim : 2 ^ 64 ≤ lim) :
    ∀ (ps : List (Obj × Option ElfImage)), (∀ p ∈ ps, ObjectIs a page m p.1 p.2) →
      (∀ p ∈ ps, SortsTables qsortP qsortS p.2) →
      ∃ ys, mapObjects a lim m qsortP page (ps.map Prod.fst) = some ys ∧ TablesOk qsortS (ys.map MappedObj.lib) ∧
        ∀ name, (∀ p ∈ ps, ¬ Provides p.1 p.2 name) → ∀ o ∈ ys.map MappedObj.lib, ¬ o.Provides name
  | [], _, _ => ⟨[], rfl, by simp [TablesOk], by simp⟩
  | p :: ps, h, hq => by
    obtain ⟨ys, h1, h2, h3⟩ := mapObjects_ok hlim ps (fun x hx => h x (by simp [hx])) (fun x hx => hq x (by simp [hx]))
    obtain ⟨y, g1, g2, g3, _⟩ := mapObject_is (h p (by simp)) hlim (hq p (by simp))
    refine ⟨y :: ys, ?_, ?_, ?_⟩
    · rw [List.map_cons]
      unfold mapObjects
      rw [g1]
      dsimp only
      rw [h1]
      rfl
    · intro o ho t ht
      rw [List.map_cons] at ho
      rcases List.mem_cons.1 ho with rfl | ho
      · exact g3 t ht
      · exact h2 o ho t ht
    · intro name hn o ho
      rw [List.map_cons] at ho
      rcases List.mem_cons.1 ho with rfl | ho
      · rw [g2]; exact hn p (by simp)
      · exact h3 name (fun x hx => hn x (by simp [hx])) o ho

/-- C80: in a process whose objects are loaded as their headers say, the symbol `base` or `base@version` of a
patch gets the run-time address of a definition of `base` in the first library that defines it: the
link-time address plus the load offset of that library.  For an indirect function it gets the address its
resolver returns. -/
theorem C80_library_symbol_partial (a : Arch) (page : BitVec 64) (m : Mem) (lim : Nat) (hlim : 2 ^ 64 ≤ lim)
    (qsortP : List Phdr → List Phdr) (qsortS : List DynSym → List DynSym) (ifunc : BitVec 64 → Option (BitVec 64))
    (pre : List (Obj × Option ElfImage)) (o : Obj) (x : ElfImage) (post : List (Obj × Option ElfImage))
    (hobj : ∀ p ∈ pre ++ (o, some x) :: post, ObjectIs a page m p.1 p.2)
    (hsort : ∀ p ∈ pre ++ (o, some x) :: post, SortsTables qsortP qsortS p.2)
    (name base : CStr) (hname : name = base ∨ ∃ ver, name = base ++ 0x40#8 :: ver) (hb : 0x40#8 ∉ base) (hk : 0#8 ∉ base)
    (hpre : ∀ p ∈ pre, ¬ Provides p.1 p.2 base)
    (hlib : TakenForLibrary o.name x.typ x.phdrs) (syms : List DynSym) (hsyms : x.syms = some syms)
    (hdef : ∃ t v, Defines syms base t v) (hcov : ∀ t v, Defines syms base t v → x.Covers page o v) :
    ∃ t v, Defines syms base t v ∧
      (t ≠ .ifunc → resolveInTarget a lim m qsortP page qsortS ifunc ((pre ++ (o, some x) :: post).map Prod.fst) name =
        some (v + x.load)) ∧
      (t = .ifunc → resolveInTarget a lim m qsortP page qsortS ifunc ((pre ++ (o, some x) :: post).map Prod.fst) name =
        some ((ifunc (v + x.load)).getD 0#64)) := by
  obtain ⟨u1, e1, t1, n1⟩ := mapObjects_ok hlim pre (fun p hp => hobj p (by simp [hp])) (fun p hp => hsort p (by simp [hp]))
  obtain ⟨u2, e2, t2, _⟩ := mapObjects_ok hlim post (fun p hp => hobj p (by simp [hp])) (fun p hp => hsort p (by simp [hp]))
  obtain ⟨y, g1, g2, g3, g4⟩ := mapObject_is (hobj (o, some x) (by simp)) hlim (hsort (o, some x) (by simp))
  obtain ⟨g4, g5⟩ := g4 x rfl
  have hmap : mapObjects a lim m qsortP page ((pre ++ (o, some x) :: post).map Prod.fst) = some (u1 ++ y :: u2) := by
    rw [List.map_append, List.map_cons, mapObjects_append, e1]
    show (mapObjects a lim m qsortP page (o :: post.map Prod.fst)).map _ = _
    unfold mapObjects
    dsimp only at g1
    rw [g1]
    dsimp only
    rw [e2]
    rfl
  have hok : TablesOk qsortS (u1.map MappedObj.lib ++ y.lib :: u2.map MappedObj.lib) := by
    intro z hz t ht
    rcases List.mem_append.1 hz with hz | hz
    · exact t1 z hz t ht
    · rcases List.mem_cons.1 hz with rfl | hz
      · exact g3 t ht
      · exact t2 z hz t ht
  have hprov : y.lib.Provides base := by
    rw [g2]
    obtain ⟨t, v, hd⟩ := hdef
    exact ⟨x, rfl, hlib, syms, t, v, hsyms, hd⟩
  obtain ⟨table, t, v, hd, hdf, r1, r2, r3⟩ := C31_first_library qsortS ifunc _ y.lib _ name base hname hb hk hok (n1 base hpre) hprov
  have ht : table = syms := by rw [g4, hsyms] at hd; exact (Option.some.inj hd).symm
  subst ht
  have hv := g5 v (hcov t v hdf)
  rw [hv] at r1 r2 r3
  refine ⟨t, v, hdf, ?_, ?_⟩
  · intro hne
    unfold resolveInTarget
    rw [hmap]
    simp only [Option.map_some, List.map_append, List.map_cons, r1 hne]
  · intro heq
    unfold resolveInTarget
    rw [hmap]
    simp only [Option.map_some, List.map_append, List.map_cons]
    cases hi : ifunc (v + x.load) with
    | some r => rw [r2 heq r hi]; rfl
    | none => rw [r3 heq hi]; rfl

/-- C80: a symbol that none of the libraries defines is not resolved. -/
theorem C80_unknown_symbol_partial (a : Arch) (page : BitVec 64) (m : Mem) (lim : Nat) (hlim : 2 ^ 64 ≤ lim)
    (qsortP : List Phdr → List Phdr) (qsortS : List DynSym → List DynSym) (ifunc : BitVec 64 → Option (BitVec 64))
    (ps : List (Obj × Option ElfImage)) (hobj : ∀ p ∈ ps, ObjectIs a page m p.1 p.2)
    (hsort : ∀ p ∈ ps, SortsTables qsortP qsortS p.2)
    (name base : CStr) (hname : name = base ∨ ∃ ver, name = base ++ 0x40#8 :: ver) (hb : 0x40#8 ∉ base) (hk : 0#8 ∉ base)
    (hno : ∀ p ∈ ps, ¬ Provides p.1 p.2 base) :
    resolveInTarget a lim m qsortP page qsortS ifunc (ps.map Prod.fst) name = some 0#64 := by
  obtain ⟨u, e, t, n⟩ := mapObjects_ok hlim ps hobj hsort
  unfold resolveInTarget
  rw [e]
  simp only [Option.map_some, Option.some.injEq]
  exact C31_no_library qsortS ifunc _ name base hname hb hk t (n base hno)

theorem resolveLoop_append {qsort : List DynSym → List DynSym} {ifunc : BitVec 64 → Option (BitVec 64)} {name : CStr}
    (y : LibObj) (hy : y.shared = false) (post : List LibObj) : ∀ pre,
    resolveLoop qsort ifunc name (pre ++ y :: post) = resolveLoop qsort ifunc name (pre ++ post) := by
  intro pre
  induction pre with
  | nil =>
    rw [List.nil_append, List.nil_append, resolveLoop, if_pos (by simp [hy])]
  | cons z pre ih =>
    rw [List.cons_append, List.cons_append, resolveLoop, resolveLoop, ih]

/-- C81: what the program itself defines is never given to a patch: an executable at a fixed address
(`ET_EXEC`, 2), or a position-independent one, which names its dynamic linker (`PT_INTERP`, 3) and is not
called like the C library, makes no difference to the address of any symbol. -/
theorem C81_program_not_searched_partial (a : Arch) (page : BitVec 64) (m : Mem) (lim : Nat) (hlim : 2 ^ 64 ≤ lim)
    (qsortP : List Phdr → List Phdr) (qsortS : List DynSym → List DynSym) (ifunc : BitVec 64 → Option (BitVec 64))
    (pre post : List Obj) (o : Obj) (x : ElfImage) (hobj : LoadedElf a page m o x) (hsort : SortsTables qsortP qsortS (some x))
    (hprog : x.typ = 2 ∨ x.typ = 3 ∧ (∃ p ∈ x.phdrs, p.typ = 3) ∧ ¬ GlibcName o.name) (name : CStr) :
    resolveInTarget a lim m qsortP page qsortS ifunc (pre ++ o :: post) name =
      resolveInTarget a lim m qsortP page qsortS ifunc (pre ++ post) name := by
  obtain ⟨y, h1, h2, _, _⟩ := mapObject_ok hobj hlim (hsort x rfl).1
  have hy : y.lib.shared = false := by
    rw [Bool.eq_false_iff, Ne, h2]
    rintro ⟨h3, h4⟩
    rcases hprog with h | ⟨_, ⟨p, hp, hpt⟩, hn⟩
    · omega
    · rcases h4 with h4 | h4
      · exact h4 p hp hpt
      · exact hn h4
  unfold resolveInTarget
  rw [mapObjects_append, mapObjects_append]
  cases mapObjects a lim m qsortP page pre with
  | none => rfl
  | some u =>
    simp only [mapObjects, h1, Option.bind_some]
    cases mapObjects a lim m qsortP page post with
    | none => rfl
    | some w =>
      simp only [Option.map_some, List.map_append, List.map_cons, resolveUndefined]
      rw [resolveLoop_append _ hy]

/-! ### A process with a program and a library -/
namespace ExObj

def zeros (n : Nat) : List Byte := List.replicate n 0#8
/-- The ELF header of a dynamic object with three program headers behind it. -/
def ehdr : List Byte :=
  [0x7f#8, 0x45#8, 0x4c#8, 0x46#8] ++ zeros 12 ++ leBytes 2 3 ++ zeros 14 ++ leBytes 8 64 ++ zeros 14 ++ leBytes 2 56 ++
    leBytes 2 3 ++ zeros 6
def phdrBytes (p : ElfPhdr) : List Byte :=
  leBytes 4 p.typ ++ leBytes 4 p.flags ++ leBytes 8 p.offset.toNat ++ leBytes 8 p.vaddr.toNat ++ zeros 8 ++
    leBytes 8 p.filesz.toNat ++ leBytes 8 p.memsz.toNat ++ zeros 8
def pLoad : ElfPhdr := ⟨1, 5, 0#64, 0#64, 0x400#64, 0x400#64⟩
def pDyn : ElfPhdr := ⟨2, 4, 232#64, 232#64, 80#64, 80#64⟩
/-- The third program header: of the interpreter (3) or of notes (4). -/
def pThird (t : Nat) : ElfPhdr := ⟨t, 4, 0x300#64, 0x300#64, 36#64, 36#64⟩
def phdrs (t : Nat) : List ElfPhdr := [pLoad, pDyn, pThird t]
def dynEntries (base : Nat) (gap : List Byte) : List (Nat × Nat) := [(5, base + 360 + gap.length), (6, base + 312), (10, 3), (11, 24), (0, 0)]
def symNull : DynSym := { name := [], nameOff := 0, value := 0#64, shndx := 0, typ := .notype }
/-- The function `f` at the link-time address `v`. -/
def symF (v : BitVec 64) : DynSym := { name := [0x66#8], nameOff := 1, value := v, shndx := 7, typ := .func }
def symBytes (s : DynSym) (info : Nat) : List Byte :=
  leBytes 4 s.nameOff ++ leBytes 1 info ++ [0#8] ++ leBytes 2 s.shndx ++ leBytes 8 s.value.toNat ++ leBytes 8 0
/-- The first 1024 bytes of the object as they are in memory: the dynamic section refers to `base`. -/
def bytes (t base : Nat) (gap : List Byte) (v : BitVec 64) : List Byte :=
  ehdr ++ (phdrs t).flatMap phdrBytes ++ (dynEntries base gap).flatMap (fun e => leBytes 8 e.1 ++ leBytes 8 e.2) ++
    symBytes symNull 0 ++ symBytes (symF v) 0x12 ++ gap ++ [0#8, 0x66#8, 0#8] ++ zeros (661 - gap.length)

def progStart : Nat := 0x555500000000
def libStart : Nat := 0x7f0000000000
def mem (t base : Nat) (gap : List Byte) : Mem := fun x =>
  if progStart ≤ x ∧ x < progStart + 1024 then (bytes 3 progStart [] 0x3e0#64)[x - progStart]?
  else if libStart ≤ x ∧ x < libStart + 1024 then (bytes t base gap 0x3f0#64)[x - libStart]?
  else none

def prog : Obj := ⟨8, 11, "prog", [⟨progStart, progStart + 0x1000, 5, 8, 11, "prog"⟩], false, true, []⟩
def lib (name : String) : Obj := ⟨8, 12, name, [⟨libStart, libStart + 0x1000, 5, 8, 12, name⟩], false, true, []⟩
def image (t start : Nat) (v : BitVec 64) : ElfImage := ⟨3, phdrs t, BitVec.ofNat 64 start, some [symNull, symF v]⟩

instance (m : Mem) (a n v : Nat) : Decidable (NumIn m a n v) := by unfold NumIn; infer_instance
instance (m : Mem) (a : Nat) (s : CStr) : Decidable (StrIn m a s) := by unfold StrIn; infer_instance

theorem bytes_length (t base : Nat) (gap : List Byte) (v : BitVec 64) (h : gap.length ≤ 661) :
    (bytes t base gap v).length = 1024 := by
  simp only [bytes, ehdr, zeros, phdrs, phdrBytes, dynEntries, symBytes, List.length_append, List.length_replicate,
    List.flatMap_cons, List.flatMap_nil, leBytes_length, List.length_cons, List.length_nil]
  omega
theorem progMapped (t base : Nat) (gap : List Byte) : Mapped (mem t base gap) progStart 1024 := by
  intro k hk
  unfold mem
  rw [if_pos (by omega), Nat.add_sub_cancel_left, Ne, List.getElem?_eq_none_iff, bytes_length _ _ _ _ (by simp)]
  omega
theorem libMapped (t base : Nat) (gap : List Byte) (h : gap.length ≤ 661) : Mapped (mem t base gap) libStart 1024 := by
  intro k hk
  unfold mem
  rw [if_neg (by simp only [progStart, libStart]; omega), if_pos (by omega), Nat.add_sub_cancel_left, Ne,
    List.getElem?_eq_none_iff, bytes_length _ _ _ _ h]
  omega
theorem mapped_sub {m : Mem} {a n b k : Nat} (h : Mapped m a n) (h1 : a ≤ b) (h2 : b + k ≤ a + n) : Mapped m b k := by
  intro j hj
  have := h (b - a + j) (by omega)
  rwa [show a + (b - a + j) = b + j by omega] at this

/-- Everything the specification asks of numbers in memory, as one decidable statement. -/
def phdrIn (m : Mem) (a : Nat) (p : ElfPhdr) : Prop :=
  NumIn m a 4 p.typ ∧ NumIn m (a + 4) 4 p.flags ∧ NumIn m (a + 8) 8 p.offset.toNat ∧ NumIn m (a + 16) 8 p.vaddr.toNat ∧
    NumIn m (a + 32) 8 p.filesz.toNat ∧ NumIn m (a + 40) 8 p.memsz.toNat
instance (m : Mem) (a : Nat) (p : ElfPhdr) : Decidable (phdrIn m a p) := by unfold phdrIn; infer_instance
def headersIn (m : Mem) (start t : Nat) : Prop :=
  (∀ k, (h : k < 4) → m (start + k) = some ([0x7f#8, 0x45#8, 0x4c#8, 0x46#8][k])) ∧
  NumIn m (start + 16) 2 3 ∧ NumIn m (start + 54) 2 56 ∧ NumIn m (start + 56) 2 3 ∧ NumIn m (start + 32) 8 64 ∧
  phdrIn m (start + 64) pLoad ∧ phdrIn m (start + 120) pDyn ∧ phdrIn m (start + 176) (pThird t)
instance (m : Mem) (start t : Nat) : Decidable (headersIn m start t) := by unfold headersIn; infer_instance

theorem headers_of {m : Mem} {start t : Nat} (hm : Mapped m start 1024) (hs : start < 2 ^ 63) (h : headersIn m start t) :
    HeadersIn m start 3 (phdrs t) where
  mapped := hm
  magic := h.1
  typ := h.2.1
  entsize := h.2.2.1
  phnum := h.2.2.2.1
  nonempty := by simp [phdrs]
  table := by
    refine ⟨64, h.2.2.2.2.1, by simp [phdrs]; omega, mapped_sub hm (by omega) (by simp [phdrs]), ?_⟩
    have conv : ∀ a p, phdrIn m a p → PhdrIn m a p := fun a p ⟨h1, h2, h3, h4, h5, h6⟩ => ⟨h1, h2, h3, h4, h5, h6⟩
    intro i p hp
    match i, hp with
    | 0, hp => simp [phdrs] at hp; subst hp; exact conv _ _ h.2.2.2.2.2.1
    | 1, hp => simp [phdrs] at hp; subst hp; exact conv _ _ h.2.2.2.2.2.2.1
    | 2, hp => simp [phdrs] at hp; subst hp; exact conv _ _ h.2.2.2.2.2.2.2
    | n + 3, hp => simp [phdrs] at hp

def symbolsIn (m : Mem) (start base : Nat) (gap : List Byte) (v : BitVec 64) : Prop :=
  (∀ i, (h : i < (dynEntries base gap).length) → NumIn m (start + 232 + 16 * i) 8 (dynEntries base gap)[i].1 ∧
    NumIn m (start + 232 + 16 * i + 8) 8 (dynEntries base gap)[i].2) ∧
  (NumIn m (start + 312) 4 0 ∧ NumIn m (start + 316) 1 0 ∧ NumIn m (start + 318) 2 0 ∧ NumIn m (start + 320) 8 0) ∧
  (NumIn m (start + 336) 4 1 ∧ NumIn m (start + 340) 1 0x12 ∧ NumIn m (start + 342) 2 7 ∧ NumIn m (start + 344) 8 v.toNat) ∧
  StrIn m (start + 360 + gap.length) [] ∧ StrIn m (start + 360 + gap.length + 1) [0x66#8]
instance (m : Mem) (start base : Nat) (gap : List Byte) (v : BitVec 64) : Decidable (symbolsIn m start base gap v) := by
  unfold symbolsIn; infer_instance

theorem symbols_of {m : Mem} {start t base : Nat} {gap : List Byte} {v : BitVec 64} {rel : Bool} (hm : Mapped m start 1024)
    (hs : start < 2 ^ 63) (ht : t ≠ 2) (hg : gap.length ≤ 661) (hb : base = if rel then start else 0)
    (h : symbolsIn m start base gap v) :
    SymbolsIn rel gap.length m (BitVec.ofNat 64 start) (phdrs t) [symNull, symF v] := by
  obtain ⟨h1, h2, h3, h4, h5⟩ := h
  have hsm : start % 2 ^ 64 = start := Nat.mod_eq_of_lt (by omega)
  have hd : ∀ x, x < 2048 → dynAddress rel (BitVec.ofNat 64 start) (base + x) = start + x := by
    intro x hx
    unfold dynAddress
    cases rel
    · simp only [Bool.false_eq_true, if_false] at hb ⊢
      rw [BitVec.toNat_ofNat, hsm, hb, Nat.mod_eq_of_lt (by omega)]
      omega
    · simp only [if_true] at hb ⊢
      rw [hb]
  have hda : (BitVec.ofNat 64 start + pDyn.vaddr).toNat = start + 232 := by
    rw [BitVec.toNat_add, BitVec.toNat_ofNat, hsm]
    show (start + 232) % 2 ^ 64 = _
    exact Nat.mod_eq_of_lt (by omega)
  have hds : dynAddress rel (BitVec.ofNat 64 start) (base + 360 + gap.length) = start + 360 + gap.length := by
    rw [Nat.add_assoc, hd _ (by omega)]; omega
  refine ⟨pDyn, dynEntries base gap, base + 312, base + 360 + gap.length, 3, by simp [phdrs], rfl, ?_, ?_, ?_, ?_, ?_, ?_,
    ?_, ?_, ?_, ?_⟩
  · intro q hq hqt
    simp only [phdrs, List.mem_cons, List.not_mem_nil, or_false] at hq
    rcases hq with rfl | rfl | rfl
    · simp [pLoad] at hqt
    · rfl
    · exact absurd hqt ht
  · rw [hda]
    refine ⟨mapped_sub hm (by omega) (by show start + 232 + 80 ≤ _; omega), by simp [dynEntries, pDyn], ?_⟩
    intro i e he
    obtain ⟨hi, rfl⟩ := List.getElem?_eq_some_iff.1 he
    exact h1 i hi
  · simp [DynValue, dynEntries]
  · simp [DynValue, dynEntries]
  · simp [DynValue, dynEntries]
  · simp [DynValue, dynEntries]
  · rw [hds, hd _ (by omega)]; simp
  · rw [hds]; omega
  · rw [hd _ (by omega)]; exact mapped_sub hm (by omega) (by simp; omega)
  · rw [hds, hd _ (by omega)]
    intro k s hk
    match k, hk with
    | 0, hk =>
      simp at hk; subst hk
      exact ⟨h2.1, ⟨0, 0, rfl, h2.2.1⟩, h2.2.2.1, h2.2.2.2, h4, by decide⟩
    | 1, hk =>
      simp at hk; subst hk
      exact ⟨h3.1, ⟨1, 2, rfl, h3.2.1⟩, h3.2.2.1, h3.2.2.2, h5, by show 1 + 1 < 3; omega⟩
    | n + 2, hk => simp at hk

theorem wf (t : Nat) (h1 : t ≠ 1) (h2 : t < 1000) : WellFormedPhdrs ((phdrs t).map ElfPhdr.toPhdr) := by
  have e : (phdrs t).map ElfPhdr.toPhdr = [pLoad.toPhdr, pDyn.toPhdr, (pThird t).toPhdr] := rfl
  have h3 : (pThird t).toPhdr.typ = .other := by
    unfold ElfPhdr.toPhdr pThird
    dsimp only
    rw [if_neg h1, if_neg (by omega)]
  rw [e]
  refine ⟨⟨pLoad.toPhdr, by simp, rfl, by decide⟩, ?_, ?_, ?_⟩
  · simp only [List.pairwise_cons, List.mem_cons, List.not_mem_nil, or_false, forall_eq_or_imp, forall_eq, h3]
    simp [pLoad, pDyn, ElfPhdr.toPhdr]
  · simp only [List.countP_cons, List.countP_nil, h3]
    decide
  · intro r hr hrt
    simp only [List.mem_cons, List.not_mem_nil, or_false] at hr
    rcases hr with rfl | rfl | rfl
    · exact absurd hrt (by decide)
    · exact absurd hrt (by decide)
    · rw [h3] at hrt; exact absurd hrt (by decide)

theorem segment_only (t : Nat) (h1 : t ≠ 1) (h2 : t < 1000) {st ms fs : BitVec 64} {fl : Nat}
    (h : Segment ((phdrs t).map ElfPhdr.toPhdr) st ms fs fl) : st = 0#64 ∧ ms = 0x400#64 := by
  have e : (phdrs t).map ElfPhdr.toPhdr = [pLoad.toPhdr, pDyn.toPhdr, (pThird t).toPhdr] := rfl
  have h3 : (pThird t).toPhdr.typ = .other := by
    unfold ElfPhdr.toPhdr pThird
    dsimp only
    rw [if_neg h1, if_neg (by omega)]
  have hno : ∀ r ∈ (phdrs t).map ElfPhdr.toPhdr, r.typ ≠ .relro := by
    rw [e]
    intro r hr
    simp only [List.mem_cons, List.not_mem_nil, or_false] at hr
    rcases hr with rfl | rfl | rfl
    · decide
    · decide
    · rw [h3]; decide
  cases h with
  | load p hp ht _ =>
    rw [e] at hp
    simp only [List.mem_cons, List.not_mem_nil, or_false] at hp
    rcases hp with rfl | rfl | rfl
    · exact ⟨rfl, rfl⟩
    · exact absurd ht (by decide)
    · rw [h3] at ht; exact absurd ht (by decide)
  | relro r hr ht => exact absurd ht (hno r hr)
  | rest p r _ _ hr ht _ => exact absurd ht (hno r hr)

theorem segment (t : Nat) (h1 : t ≠ 1) (h2 : t < 1000) :
    Segment ((phdrs t).map ElfPhdr.toPhdr) 0#64 0x400#64 0x400#64 5 := by
  have h3 : (pThird t).toPhdr.typ = .other := by
    unfold ElfPhdr.toPhdr pThird
    dsimp only
    rw [if_neg h1, if_neg (by omega)]
  refine Segment.load pLoad.toPhdr (by simp [phdrs]) rfl ?_
  intro r hr hrt
  have e : (phdrs t).map ElfPhdr.toPhdr = [pLoad.toPhdr, pDyn.toPhdr, (pThird t).toPhdr] := rfl
  rw [e] at hr
  simp only [List.mem_cons, List.not_mem_nil, or_false] at hr
  rcases hr with rfl | rfl | rfl
  · exact absurd hrt (by decide)
  · exact absurd hrt (by decide)
  · rw [h3] at hrt; exact absurd hrt (by decide)

/-- The page size. -/
abbrev page : BitVec 64 := 0x1000#64

theorem loadOffset (start t : Nat) (ht : t ≠ 1) : LoadOffset page start (phdrs t) (BitVec.ofNat 64 start) := by
  refine ⟨pLoad, by simp [phdrs], rfl, ?_, ?_⟩
  · intro q hq hqt
    simp only [phdrs, List.mem_cons, List.not_mem_nil, or_false] at hq
    rcases hq with rfl | rfl | rfl
    · exact BitVec.le_refl _
    · simp [pDyn] at hqt
    · exact absurd hqt ht
  · show _ = BitVec.ofNat 64 start - pageDown 0x1000#64 0#64
    rw [show pageDown 0x1000#64 0#64 = 0#64 by decide]
    simp

theorem sorts (t start : Nat) (h1 : t ≠ 1) (h2 : t < 1000) (v : BitVec 64) (q : List DynSym → List DynSym)
    (hq : SortedBy symNameCmp (q [symNull, symF v]) [symNull, symF v]) : SortsTables id q (some (image t start v)) := by
  intro i hi
  cases hi
  refine ⟨⟨List.Perm.refl _, ?_⟩, ?_⟩
  · show (List.filter _ [pLoad.toPhdr, pDyn.toPhdr, (pThird t).toPhdr]).Pairwise _
    have h3 : (pThird t).toPhdr.typ = .other := by
      unfold ElfPhdr.toPhdr pThird
      dsimp only
      rw [if_neg h1, if_neg (by omega)]
    simp [List.filter_cons, h3, show pLoad.toPhdr.typ = .load from rfl, show pDyn.toPhdr.typ = .other from rfl]
  · intro syms hs
    cases hs
    exact hq

/-- An object of one mapping in which headers and symbols are as described. -/
theorem loaded {a : Arch} {m : Mem} {o : Obj} {start t dev ino : Nat} {nm : String} {v : BitVec 64} (he : o.isElf = true)
    (hn : kernelName o.name = false) (hv : o.vmas = [⟨start, start + 0x1000, 5, dev, ino, nm⟩]) (hm : Mapped m start 1024)
    (hs : start < 2 ^ 63) (h1 : t ≠ 1) (h2 : t ≠ 2) (h3 : t < 1000)
    (hp : pageDown page (BitVec.ofNat 64 start) = BitVec.ofNat 64 start ∧
      pageUp page (BitVec.ofNat 64 start + 0x400#64) = BitVec.ofNat 64 (start + 0x1000))
    (hh : headersIn m start t) (hsy : symbolsIn m start (if glibcRelocates a then start else 0) [] v) :
    LoadedElf a page m o (image t start v) where
  elf := he
  name := hn
  headers := ⟨_, by rw [hv]; rfl, headers_of hm hs hh, loadOffset start t h1⟩
  wf := wf t h1 h3
  mapped := by
    intro w hw _
    rw [hv] at hw
    simp only [List.mem_cons, List.not_mem_nil, or_false] at hw
    subst hw
    refine ⟨_, _, _, _, segment t h1 h3, ⟨?_, ?_, by show prot2flags 5 = 5 % 8; decide⟩, ?_⟩
    · show BitVec.ofNat 64 start = pageDown page (0#64 + BitVec.ofNat 64 start)
      rw [BitVec.zero_add, hp.1]
    · show BitVec.ofNat 64 (start + 0x1000) = pageUp page (0#64 + BitVec.ofNat 64 start + 0x400#64)
      rw [BitVec.zero_add, hp.2]
    · intro st ms f fl hseg _
      exact segment_only t h1 h3 hseg
  symbols := symbols_of (gap := []) hm hs h2 (by simp) rfl hsy

theorem progLoaded : LoadedElf .x86 page (mem 3 libStart []) prog (image 3 progStart 0x3e0#64) :=
  loaded rfl (by decide) rfl (progMapped _ _ _) (by decide) (by decide) (by decide) (by decide) (by decide)
    (by decide +kernel) (by decide +kernel)

theorem libLoaded (name : String) (hn : kernelName name = false) :
    LoadedElf .x86 page (mem 3 libStart []) (lib name) (image 3 libStart 0x3f0#64) :=
  loaded rfl hn rfl (libMapped _ _ _ (by simp)) (by decide) (by decide) (by decide) (by decide) (by decide)
    (by decide +kernel) (by decide +kernel)

/-- The mapping holds the whole segment. -/
theorem covers {o : Obj} {start t dev ino : Nat} {nm : String} {v u : BitVec 64}
    (hv : o.vmas = [⟨start, start + 0x1000, 5, dev, ino, nm⟩]) (h1 : t ≠ 1) (h3 : t < 1000)
    (hp : pageDown page (BitVec.ofNat 64 start) = BitVec.ofNat 64 start ∧
      pageUp page (BitVec.ofNat 64 start + 0x400#64) = BitVec.ofNat 64 (start + 0x1000))
    (hu : u ≠ 0#64 ∧ u < 0x400#64) : (image t start v).Covers page o u := by
  refine ⟨hu.1, _, by rw [hv]; exact List.mem_singleton.2 rfl, by show (5 : Nat) ≠ 0; decide, _, _, _, _, segment t h1 h3,
    ⟨?_, ?_, by show prot2flags 5 = 5 % 8; decide⟩, (by rw [BitVec.le_def]; exact Nat.zero_le _), by rw [BitVec.zero_add]; exact hu.2⟩
  · show BitVec.ofNat 64 start = pageDown page (0#64 + BitVec.ofNat 64 start)
    rw [BitVec.zero_add, hp.1]
  · show BitVec.ofNat 64 (start + 0x1000) = pageUp page (0#64 + BitVec.ofNat 64 start + 0x400#64)
    rw [BitVec.zero_add, hp.2]

def f : CStr := [0x66#8]
theorem defines_iff {v : BitVec 64} {t : SymType} {u : BitVec 64} : Defines [symNull, symF v] f t u ↔ t = .func ∧ u = v := by
  constructor
  · rintro ⟨s, hs, hn, _, _, ht, hv⟩
    simp only [List.mem_cons, List.not_mem_nil, or_false] at hs
    rcases hs with rfl | rfl
    · exact absurd hn (by decide)
    · exact ⟨ht.symm, hv.symm⟩
  · rintro ⟨rfl, rfl⟩
    exact ⟨symF u, by simp, rfl, by show (7 : Nat) ≠ 0; decide, by show 7 < 0xff00; decide, rfl, rfl⟩

/-- The sort of the example: definitions first, in the order of the table. -/
def qs (l : List DynSym) : List DynSym := l.filter (fun s => s.shndx ≠ 0) ++ l.filter (fun s => s.shndx = 0)
theorem qs_ok (v : BitVec 64) (h : symNameCmp (symF v) symNull ≤ 0) :
    SortedBy symNameCmp (qs [symNull, symF v]) [symNull, symF v] := by
  refine ⟨List.Perm.swap _ _ _, ?_⟩
  show [symF v, symNull].Pairwise _
  simpa using h

/-- With one object, resolution starts from what its headers say. -/
theorem resolve_one {a : Arch} {m : Mem} {o : Obj} {v : Mapping} {P : List ElfPhdr} {name : CStr} (he : o.isElf = true)
    (hn : kernelName o.name = false) (hv : o.vmas = [v]) (hh : HeadersIn m v.start 3 P) (hi : ∀ p ∈ P, p.typ ≠ 3) :
    resolveInTarget a (2 ^ 64) m id page qs (fun _ => none) [o] name =
      let r := parseProgramHeader id page (P.map ElfPhdr.toPhdr) (BitVec.ofNat 64 v.start) (BitVec.allOnes 64) [v.toOVma]
      if r.rv < 0 then none
      else some (resolveUndefined qs (fun _ => none)
        [{ shared := true, dyn := readDynsym a (2 ^ 64) m r.load P, vmas := r.vmas }] name) := by
  obtain ⟨h, hob, ht, hph⟩ := objHeaders_ok (lim := 2 ^ 64) hh (by have := hh.phnum.1; omega)
  have hs : isSharedLib o.name h = true := (isSharedLib_iff _ _).2 ⟨ht, by rw [hph]; exact Or.inl hi⟩
  unfold resolveInTarget
  simp only [mapObjects, mapObject, he, hn, Bool.not_true, Bool.or_self, Bool.false_eq_true, if_false, hv, List.head?_cons,
    hob, hs, hph, List.map_cons, List.map_nil]
  split
  · next h => rw [if_pos]
              · rfl
              · by_contra hc; rw [if_neg hc] at h; simp at h
  · next x h =>
    by_cases hc : (parseProgramHeader id page (P.map ElfPhdr.toPhdr) (BitVec.ofNat 64 v.start) (BitVec.allOnes 64)
      [v.toOVma]).rv < 0
    · rw [if_pos hc] at h; simp at h
    · rw [if_neg hc] at h ⊢
      cases h
      rfl

end ExObj

/-- The hypotheses of C80 and C81 are met, and the address is right: a position-independent program and the C
library, which also names a dynamic linker, both define `f`; a patch that uses `f@GLIBC_2.2.5` gets the
function of the library. -/
example (ifunc : BitVec 64 → Option (BitVec 64)) :
    resolveInTarget .x86 (2 ^ 64) (ExObj.mem 3 ExObj.libStart []) id ExObj.page ExObj.qs ifunc
      [ExObj.prog, ExObj.lib "libc.so.6"] (ExObj.f ++ lit "@GLIBC_2.2.5") = some (0x7f00000003f0#64) := by
  have hp : ExObj.libStart < 2 ^ 63 := by decide
  have hlib : TakenForLibrary "libc.so.6" 3 (ExObj.phdrs 3) := ⟨rfl, Or.inr ⟨"libc", by simp, Or.inl ⟨"6", by decide⟩⟩⟩
  have hpn : ¬ GlibcName "prog" := by rw [← interpException_iff]; decide
  obtain ⟨t, v, hd, h1, _⟩ := C80_library_symbol_partial .x86 ExObj.page (ExObj.mem 3 ExObj.libStart []) (2 ^ 64) (by omega)
    id ExObj.qs ifunc [] (ExObj.lib "libc.so.6") (ExObj.image 3 ExObj.libStart 0x3f0#64) [] (by
      intro p hp
      simp only [List.nil_append, List.mem_singleton] at hp
      subst hp
      exact ExObj.libLoaded _ (by decide)) (by
      intro p hp
      simp only [List.nil_append, List.mem_singleton] at hp
      subst hp
      exact ExObj.sorts 3 _ (by decide) (by decide) _ _ (ExObj.qs_ok _ (by decide)))
    (ExObj.f ++ lit "@GLIBC_2.2.5") ExObj.f (Or.inr ⟨lit "GLIBC_2.2.5", by decide +kernel⟩) (by decide) (by decide) (by simp) hlib
    _ rfl ⟨.func, 0x3f0#64, ExObj.defines_iff.2 ⟨rfl, rfl⟩⟩ (by
      intro t v hd
      obtain ⟨rfl, rfl⟩ := ExObj.defines_iff.1 hd
      exact ExObj.covers rfl (by decide) (by decide) (by decide) (by decide))
  obtain ⟨rfl, rfl⟩ := ExObj.defines_iff.1 hd
  have := C81_program_not_searched_partial .x86 ExObj.page (ExObj.mem 3 ExObj.libStart []) (2 ^ 64) (by omega) id ExObj.qs ifunc
    [] [ExObj.lib "libc.so.6"] ExObj.prog _ ExObj.progLoaded (ExObj.sorts 3 _ (by decide) (by decide) _ _ (ExObj.qs_ok _ (by decide)))
    (Or.inr ⟨rfl, ⟨ExObj.pThird 3, by simp [ExObj.image, ExObj.phdrs], rfl⟩, hpn⟩) (ExObj.f ++ lit "@GLIBC_2.2.5")
  rw [List.nil_append, List.nil_append] at this
  rw [this]
  exact h1 (by decide)

/-- C81 is violated for libraries that can be started as programs but are not glibc's, such as Qt's core
library: the library is mapped, its symbol table defines `f`, and `f` is not found. -/
theorem C81_violated_interp_library :
    ∃ (m : Mem) (o : Obj) (x : ElfImage), o.name = "libQt5Core.so.5" ∧ LoadedElf .x86 ExObj.page m o x ∧
      (∃ syms, x.syms = some syms ∧ Defines syms (lit "f") .func 0x3f0#64) ∧ x.Covers ExObj.page o 0x3f0#64 ∧
      ∀ ifunc, resolveInTarget .x86 (2 ^ 64) m id ExObj.page ExObj.qs ifunc [o] (lit "f") = some 0#64 := by
  refine ⟨ExObj.mem 3 ExObj.libStart [], ExObj.lib "libQt5Core.so.5", ExObj.image 3 ExObj.libStart 0x3f0#64, rfl,
    ExObj.libLoaded _ (by decide), ⟨_, rfl, ?_⟩, ExObj.covers rfl (by decide) (by decide) (by decide) (by decide), ?_⟩
  · rw [show lit "f" = ExObj.f by decide +kernel]
    exact ExObj.defines_iff.2 ⟨rfl, rfl⟩
  · intro ifunc
    have hn : ¬ GlibcName "libQt5Core.so.5" := by rw [← interpException_iff]; decide
    have := C81_program_not_searched_partial .x86 ExObj.page (ExObj.mem 3 ExObj.libStart []) (2 ^ 64) (by omega) id ExObj.qs ifunc
      [] [] (ExObj.lib "libQt5Core.so.5") _ (ExObj.libLoaded _ (by decide))
      (ExObj.sorts 3 _ (by decide) (by decide) _ _ (ExObj.qs_ok _ (by decide)))
      (Or.inr ⟨rfl, ⟨ExObj.pThird 3, by simp [ExObj.image, ExObj.phdrs], rfl⟩, hn⟩) (lit "f")
    rw [List.nil_append, List.nil_append] at this
    rw [this]
    rfl

/-- C80 is violated where the dynamic linker leaves the addresses in the dynamic section as the static linker
wrote them, as musl's does: the library defines `f` and it is not found. -/
theorem C80_violated_unrelocated :
    ∃ (m : Mem) (start : Nat) (phdrs : List ElfPhdr) (syms : List DynSym) (o : Obj),
      (∃ v, o.vmas = [v] ∧ v.start = start ∧ v.prot = 5) ∧ o.isElf = true ∧ HeadersIn m start 3 phdrs ∧ (∀ p ∈ phdrs, p.typ ≠ 3) ∧
      LoadOffset ExObj.page start phdrs (BitVec.ofNat 64 start) ∧
      SymbolsIn false 0 m (BitVec.ofNat 64 start) phdrs syms ∧ Defines syms (lit "f") .func 0x3f0#64 ∧
      resolveInTarget .x86 (2 ^ 64) m id ExObj.page ExObj.qs (fun _ => none) [o] (lit "f") = some 0#64 := by
  have hm := ExObj.libMapped 4 0 [] (by simp)
  refine ⟨ExObj.mem 4 0 [], ExObj.libStart, ExObj.phdrs 4, _, ExObj.lib "libfoo.so.1", ⟨_, rfl, rfl, rfl⟩, rfl,
    ExObj.headers_of hm (by decide) (by decide +kernel), by simp [ExObj.phdrs, ExObj.pLoad, ExObj.pDyn, ExObj.pThird],
    ExObj.loadOffset _ _ (by decide),
    ExObj.symbols_of (gap := []) (base := 0) (v := 0x3f0#64) hm (by decide) (by decide) (by simp) rfl (by decide +kernel), ?_, ?_⟩
  · rw [show lit "f" = ExObj.f by decide +kernel]
    exact ExObj.defines_iff.2 ⟨rfl, rfl⟩
  · rw [ExObj.resolve_one rfl (by decide) rfl (ExObj.headers_of (t := 4) hm (by decide) (by decide +kernel))
      (by simp [ExObj.phdrs, ExObj.pLoad, ExObj.pDyn, ExObj.pThird])]
    decide +kernel

/-- C80 is violated where the string table does not directly follow the symbols, which no rule of the format
asks for: the bytes between them are taken for symbols.  Here the library's only `f` is at 0x3f0, and a patch
gets 0x111. -/
theorem C80_violated_table_layout :
    ∃ (m : Mem) (start gap : Nat) (phdrs : List ElfPhdr) (syms : List DynSym) (o : Obj),
      (∃ v, o.vmas = [v] ∧ v.start = start ∧ v.prot = 5) ∧ o.isElf = true ∧ HeadersIn m start 3 phdrs ∧ (∀ p ∈ phdrs, p.typ ≠ 3) ∧
      LoadOffset ExObj.page start phdrs (BitVec.ofNat 64 start) ∧
      SymbolsIn true gap m (BitVec.ofNat 64 start) phdrs syms ∧ (∀ t v, Defines syms (lit "f") t v ↔ t = .func ∧ v = 0x3f0#64) ∧
      resolveInTarget .x86 (2 ^ 64) m id ExObj.page ExObj.qs (fun _ => none) [o] (lit "f") =
        some (BitVec.ofNat 64 start + 0x111#64) := by
  have hm := ExObj.libMapped 4 ExObj.libStart (ExObj.symBytes (ExObj.symF 0x111#64) 0x12) (by decide)
  refine ⟨ExObj.mem 4 ExObj.libStart (ExObj.symBytes (ExObj.symF 0x111#64) 0x12), ExObj.libStart, _, ExObj.phdrs 4, _,
    ExObj.lib "libfoo.so.1", ⟨_, rfl, rfl, rfl⟩, rfl,
    ExObj.headers_of hm (by decide) (by decide +kernel), by simp [ExObj.phdrs, ExObj.pLoad, ExObj.pDyn, ExObj.pThird],
    ExObj.loadOffset _ _ (by decide),
    ExObj.symbols_of (gap := ExObj.symBytes (ExObj.symF 0x111#64) 0x12) (base := ExObj.libStart) (v := 0x3f0#64) hm (by decide)
      (by decide) (by decide) rfl (by decide +kernel), ?_, ?_⟩
  · intro t v
    rw [show lit "f" = ExObj.f by decide +kernel]
    exact ExObj.defines_iff
  · rw [ExObj.resolve_one rfl (by decide) rfl (ExObj.headers_of (t := 4) hm (by decide) (by decide +kernel))
      (by simp [ExObj.phdrs, ExObj.pLoad, ExObj.pDyn, ExObj.pThird])]
    decide +kernel

end Verif
