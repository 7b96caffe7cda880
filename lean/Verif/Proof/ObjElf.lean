import Verif.Spec.ObjElf
import Verif.Proof.Mem
import Verif.Proof.PatchPrep
import Verif.Props.Phdr
/-
Reading the headers and the dynamic symbol table of an object from the memory of the target.
-/
namespace Verif

theorem Holds.get {m : Mem} {a : Nat} {bs : List Byte} (h : Holds m a bs) {k : Nat} (hk : k < bs.length) :
    bs[k]? = m (a + k) := by
  rw [List.getElem?_eq_getElem hk, h k hk]

/-- A number in memory is a field of the bytes read. -/
theorem NumIn.field {m : Mem} {a : Nat} {bs : List Byte} (h : Holds m a bs) {off n v : Nat}
    (hn : NumIn m (a + off) n v) (hl : off + n ≤ bs.length) : FieldAt bs off n v := by
  refine ⟨hn.1, fun j hj => ?_⟩
  rw [h.get (by omega), ← Nat.add_assoc]
  exact hn.2 j hj

theorem NumIn.ld {m : Mem} {a : Nat} {bs : List Byte} (h : Holds m a bs) {off n v : Nat}
    (hn : NumIn m (a + off) n v) (hl : off + n ≤ bs.length) : ldField bs off n = v :=
  (hn.field h hl).ld

theorem Holds.take {m : Mem} {a : Nat} {bs : List Byte} (h : Holds m a bs) (n : Nat) : Holds m a (bs.take n) := by
  intro k hk
  rw [List.length_take] at hk
  rw [List.getElem_take]
  exact h k (by omega)

theorem Holds.drop {m : Mem} {a : Nat} {bs : List Byte} (h : Holds m a bs) (n : Nat) : Holds m (a + n) (bs.drop n) := by
  intro k hk
  rw [List.length_drop] at hk
  rw [List.getElem_drop, Nat.add_assoc]
  exact h (n + k) (by omega)

theorem PhdrIn.parse {m : Mem} {a i : Nat} {tab : List Byte} {p : ElfPhdr} (h : Holds m a tab)
    (hp : PhdrIn m (a + 56 * i) p) (hl : 56 * i + 56 ≤ tab.length) : elfPhdrAt tab i = p := by
  unfold elfPhdrAt
  rw [hp.typ.ld h (by omega), NumIn.ld h (hp.flags) (by omega),
    NumIn.ld (off := 56 * i + 8) h hp.offset (by omega), NumIn.ld (off := 56 * i + 16) h hp.vaddr (by omega),
    NumIn.ld (off := 56 * i + 32) h hp.filesz (by omega), NumIn.ld (off := 56 * i + 40) h hp.memsz (by omega)]
  simp

/-- The headers are read as they are in memory. -/
theorem objHeaders_ok {m : Mem} {lim start typ : Nat} {phdrs : List ElfPhdr} (H : HeadersIn m start typ phdrs)
    (hlim : 1024 + 56 * phdrs.length ≤ lim) :
    ∃ h, objHeaders lim m start = some h ∧ ehdrType h.ehdr = typ ∧ h.phdrs = phdrs := by
  obtain ⟨buf, hr, hl, hh⟩ := memRead_full (lim := lim) (by omega) H.mapped
  obtain ⟨phoff, hpo, hwrap, htm, htab⟩ := H.table
  have hb4 : buf.take 4 = elfMagic := by
    apply List.ext_getElem?
    intro k
    by_cases hk : k < 4
    · rw [List.getElem?_take, if_pos hk, hh.get (by omega)]
      have := H.magic k (by simpa using hk)
      rw [this]
      unfold elfMagic
      rw [List.getElem?_eq_getElem (by simpa using hk)]
      rfl
    · rw [List.getElem?_take, if_neg hk]
      simp [elfMagic]; omega
  have he := hh.take 64
  have hel : (buf.take 64).length = 64 := by rw [List.length_take]; omega
  have e1 : ehdrPhentsize (buf.take 64) = 56 := H.entsize.ld he (by omega)
  have e2 : ehdrPhnum (buf.take 64) = phdrs.length := H.phnum.ld he (by omega)
  have e3 : ehdrPhoff (buf.take 64) = phoff := hpo.ld he (by omega)
  have e4 : ehdrType (buf.take 64) = typ := H.typ.ld he (by omega)
  have hn0 : phdrs.length ≠ 0 := by have := H.nonempty; rw [Ne, List.length_eq_zero_iff]; exact this
  have hhead : (buf.take 64).head? = some 0x7f#8 := by
    have := H.magic 0 (by decide)
    rw [List.head?_eq_getElem?, List.getElem?_take, if_pos (by omega), hh.get (by omega), this]
    rfl
  have hdec : ∀ tab, Holds m (start + phoff) tab → tab.length = 56 * phdrs.length →
      (List.range phdrs.length).map (elfPhdrAt tab) = phdrs := by
    intro tab ht hlt
    apply List.ext_getElem
    · simp
    · intro i h1 h2
      rw [List.getElem_map, List.getElem_range]
      exact PhdrIn.parse ht (htab i _ (List.getElem?_eq_getElem h2)) (by omega)
  unfold objHeaders
  rw [hr]
  dsimp only
  unfold setEhdr
  rw [if_neg (by rw [hb4]; simp)]
  dsimp only
  rw [e1, e2, e3, if_neg (by omega), Nat.mod_eq_of_lt (a := phoff + _) (b := 2 ^ 64)]
  · by_cases hc : buf.length < phoff + 56 * phdrs.length
    · rw [if_pos hc]
      dsimp only
      unfold peekPhdr
      rw [if_neg (by rw [hhead]; simp)]
      dsimp only
      rw [e2, e3, Nat.mod_eq_of_lt (by omega)]
      obtain ⟨tab, hr2, hl2, hh2⟩ := memRead_full (lim := lim) (by omega) htm
      rw [hr2]
      refine ⟨_, rfl, e4, ?_⟩
      unfold ObjHdr.phdrs
      dsimp only [Option.getD_some]
      rw [e2]
      exact hdec tab hh2 hl2
    · rw [if_neg hc]
      dsimp only
      unfold peekPhdr
      rw [if_neg (by rw [hhead]; simp)]
      refine ⟨_, rfl, e4, ?_⟩
      unfold ObjHdr.phdrs
      dsimp only [Option.getD_some]
      rw [e2]
      refine hdec _ ((hh.drop phoff).take _) ?_
      rw [List.length_take, List.length_drop]
      omega
  · omega

/-- The loop over the dynamic section finds the three entries. -/
theorem dynScan_spec (dyn : List Byte) (S T Z : Nat) : ∀ (is : List Nat) (d : DynInfo),
    (∀ i ∈ is, ldField dyn (16 * i) 8 = 6 → ldField dyn (16 * i + 8) 8 = S) →
    (∀ i ∈ is, ldField dyn (16 * i) 8 = 5 → ldField dyn (16 * i + 8) 8 = T) →
    (∀ i ∈ is, ldField dyn (16 * i) 8 = 10 → ldField dyn (16 * i + 8) 8 = Z) →
    (∀ i ∈ is, ldField dyn (16 * i) 8 = 11 → ldField dyn (16 * i + 8) 8 = 24) →
    ∃ d', dynScan dyn is d = some d' ∧
      (d'.symtab = S ∨ d'.symtab = d.symtab ∧ ∀ i ∈ is, ldField dyn (16 * i) 8 ≠ 6) ∧
      (d'.strtab = T ∨ d'.strtab = d.strtab ∧ ∀ i ∈ is, ldField dyn (16 * i) 8 ≠ 5) ∧
      (d'.strsz = Z ∨ d'.strsz = d.strsz ∧ ∀ i ∈ is, ldField dyn (16 * i) 8 ≠ 10)
  | [], d, _, _, _, _ => ⟨d, rfl, by simp, by simp, by simp⟩
  | i :: is, d, h6, h5, h10, h11 => by
    have ih := fun d => dynScan_spec dyn S T Z is d (fun j hj => h6 j (by simp [hj])) (fun j hj => h5 j (by simp [hj]))
      (fun j hj => h10 j (by simp [hj])) (fun j hj => h11 j (by simp [hj]))
    have g6 := h6 i (by simp)
    have g5 := h5 i (by simp)
    have g10 := h10 i (by simp)
    have g11 := h11 i (by simp)
    unfold dynScan
    dsimp only
    clear h6 h5 h10 h11
    by_cases t6 : ldField dyn (16 * i) 8 = 6
    · rw [if_pos t6]
      obtain ⟨d', q, r6, r5, r10⟩ := ih { d with symtab := ldField dyn (16 * i + 8) 8 }
      refine ⟨d', q, Or.inl ?_, r5.imp_right fun h => ⟨h.1, ?_⟩, r10.imp_right fun h => ⟨h.1, ?_⟩⟩
      · rcases r6 with h | ⟨h, _⟩
        · exact h
        · rw [h]; exact g6 t6
      · intro j hj; rcases List.mem_cons.1 hj with rfl | hj
        · omega
        · exact h.2 j hj
      · intro j hj; rcases List.mem_cons.1 hj with rfl | hj
        · omega
        · exact h.2 j hj
    rw [if_neg t6]
    by_cases t5 : ldField dyn (16 * i) 8 = 5
    · rw [if_pos t5]
      obtain ⟨d', q, r6, r5, r10⟩ := ih { d with strtab := ldField dyn (16 * i + 8) 8 }
      refine ⟨d', q, r6.imp_right fun h => ⟨h.1, ?_⟩, Or.inl ?_, r10.imp_right fun h => ⟨h.1, ?_⟩⟩
      · intro j hj; rcases List.mem_cons.1 hj with rfl | hj
        · omega
        · exact h.2 j hj
      · rcases r5 with h | ⟨h, _⟩
        · exact h
        · rw [h]; exact g5 t5
      · intro j hj; rcases List.mem_cons.1 hj with rfl | hj
        · omega
        · exact h.2 j hj
    rw [if_neg t5]
    by_cases t10 : ldField dyn (16 * i) 8 = 10
    · rw [if_pos t10]
      obtain ⟨d', q, r6, r5, r10⟩ := ih { d with strsz := ldField dyn (16 * i + 8) 8 }
      refine ⟨d', q, r6.imp_right fun h => ⟨h.1, ?_⟩, r5.imp_right fun h => ⟨h.1, ?_⟩, Or.inl ?_⟩
      · intro j hj; rcases List.mem_cons.1 hj with rfl | hj
        · omega
        · exact h.2 j hj
      · intro j hj; rcases List.mem_cons.1 hj with rfl | hj
        · omega
        · exact h.2 j hj
      · rcases r10 with h | ⟨h, _⟩
        · exact h
        · rw [h]; exact g10 t10
    rw [if_neg t10]
    have rest : ∃ d', dynScan dyn is d = some d' ∧
      (d'.symtab = S ∨ d'.symtab = d.symtab ∧ ∀ j ∈ i :: is, ldField dyn (16 * j) 8 ≠ 6) ∧
      (d'.strtab = T ∨ d'.strtab = d.strtab ∧ ∀ j ∈ i :: is, ldField dyn (16 * j) 8 ≠ 5) ∧
      (d'.strsz = Z ∨ d'.strsz = d.strsz ∧ ∀ j ∈ i :: is, ldField dyn (16 * j) 8 ≠ 10) := by
      obtain ⟨d', q, r6, r5, r10⟩ := ih d
      refine ⟨d', q, r6.imp_right fun h => ⟨h.1, ?_⟩, r5.imp_right fun h => ⟨h.1, ?_⟩, r10.imp_right fun h => ⟨h.1, ?_⟩⟩
      all_goals
        intro j hj
        rcases List.mem_cons.1 hj with rfl | hj
        · assumption
        · exact h.2 j hj
    by_cases t11 : ldField dyn (16 * i) 8 = 11
    · rw [if_pos t11, if_neg (by simp [g11 t11])]
      exact rest
    · rw [if_neg t11]
      exact rest

theorem DynSymIn.parse {m : Mem} {a : Nat} {buf : List Byte} (h : Holds m a buf) {n k strsz : Nat} {s : DynSym}
    (hk : k < n) (hl : buf.length = 24 * n + strsz) (hs : DynSymIn m (a + 24 * k) (a + 24 * n) strsz s) :
    dynSymAt buf (24 * n) k = s := by
  obtain ⟨b, t, ht, hi⟩ := hs.info
  have e1 : ldField buf (24 * k) 4 = s.nameOff := hs.nameOff.ld h (by omega)
  unfold dynSymAt
  rw [e1, NumIn.ld (off := 24 * k + 8) h hs.value (by omega), NumIn.ld (off := 24 * k + 6) h hs.shndx (by omega),
    NumIn.ld (off := 24 * k + 4) h hi (by omega), symTypeOf_code ht]
  have hn : cstr (buf.drop (24 * n + s.nameOff)) = s.name := by
    have hin := hs.inside
    apply StrAt.cstr
    refine ⟨hs.name.1, fun j hj => ?_, ?_⟩
    · rw [h.get (by omega), ← hs.name.2.1 j hj]; congr 1; omega
    · rw [h.get (by omega), ← hs.name.2.2]; congr 1; omega
  rw [hn]
  simp

/-- The dynamic symbol table is read as it is in memory. -/
theorem readDynsym_ok {a : Arch} {m : Mem} {lim : Nat} {load : BitVec 64} {phdrs : List ElfPhdr} {syms : List DynSym}
    (H : SymbolsIn (glibcRelocates a) 0 m load phdrs syms) (hlim : 2 ^ 64 ≤ lim) : readDynsym a lim m load phdrs = some syms := by
  obtain ⟨p, entries, symtab, strtab, strsz, hp, hpt, hpu, hd, h6, h5, h10, h11, hlay, hend, hmap, hsyms⟩ := H.tables
  have hf : phdrs.find? (fun p => p.typ == 2) = some p := by
    cases hx : phdrs.find? (fun p => p.typ == 2) with
    | none => rw [List.find?_eq_none] at hx; exact absurd (by simpa using hpt) (hx p hp)
    | some q => rw [hpu q (List.mem_of_find?_eq_some hx) (by simpa using List.find?_some hx)]
  obtain ⟨dyn, hr, hl, hh⟩ := memRead_full (lim := lim) (by have := p.memsz.isLt; omega) hd.mapped
  have hent : ∀ i, i < p.memsz.toNat / 16 → (ldField dyn (16 * i) 8, ldField dyn (16 * i + 8) 8) ∈ entries ∧
      entries[i]? = some (ldField dyn (16 * i) 8, ldField dyn (16 * i + 8) 8) := by
    intro i hi
    have hlt : i < entries.length := by rw [hd.length]; exact hi
    obtain ⟨q1, q2⟩ := hd.entry i _ (List.getElem?_eq_getElem hlt)
    have r1 := q1.ld hh (by omega)
    have r2 := NumIn.ld (off := 16 * i + 8) hh q2 (by omega)
    rw [r1, r2]
    exact ⟨List.getElem_mem hlt, List.getElem?_eq_getElem hlt⟩
  have hex : ∀ t v, (t, v) ∈ entries → ∃ i ∈ List.range (p.memsz.toNat / 16), ldField dyn (16 * i) 8 = t := by
    intro t v hm
    obtain ⟨i, hi, he⟩ := List.getElem_of_mem hm
    rw [hd.length] at hi
    have := (hent i hi).2
    rw [List.getElem?_eq_getElem (by rw [hd.length]; exact hi), he] at this
    simp only [Option.some.injEq, Prod.mk.injEq] at this
    exact ⟨i, List.mem_range.2 hi, this.1.symm⟩
  have hval : ∀ t v, DynValue entries t v → ∀ i ∈ List.range (p.memsz.toNat / 16), ldField dyn (16 * i) 8 = t →
      ldField dyn (16 * i + 8) 8 = v := by
    intro t v hv i hi ht
    apply hv.2
    have := (hent i (List.mem_range.1 hi)).1
    rw [ht] at this
    exact this
  obtain ⟨d, hs, s6, s5, s10⟩ := dynScan_spec dyn symtab strtab strsz (List.range (p.memsz.toNat / 16)) {}
    (hval _ _ h6) (hval _ _ h5) (hval _ _ h10) (hval _ _ h11)
  have e6 : d.symtab = symtab := by
    rcases s6 with h | ⟨_, h⟩
    · exact h
    · obtain ⟨i, hi, he⟩ := hex _ _ h6.1; exact absurd he (h i hi)
  have e5 : d.strtab = strtab := by
    rcases s5 with h | ⟨_, h⟩
    · exact h
    · obtain ⟨i, hi, he⟩ := hex _ _ h5.1; exact absurd he (h i hi)
  have e10 : d.strsz = strsz := by
    rcases s10 with h | ⟨_, h⟩
    · exact h
    · obtain ⟨i, hi, he⟩ := hex _ _ h10.1; exact absurd he (h i hi)
  have b6 : symtab < 2 ^ 64 := by
    obtain ⟨i, hi, he⟩ := List.getElem_of_mem h6.1
    have := (hd.entry i _ (List.getElem?_eq_getElem hi)).2.1
    rw [he] at this
    exact this
  have b5 : strtab < 2 ^ 64 := by
    obtain ⟨i, hi, he⟩ := List.getElem_of_mem h5.1
    have := (hd.entry i _ (List.getElem?_eq_getElem hi)).2.1
    rw [he] at this
    exact this
  have hsz : (strtab + 2 ^ 64 - symtab) % 2 ^ 64 = 24 * syms.length := by
    have := load.isLt
    unfold dynAddress at hlay hend
    split at hlay
    · rename_i hc; rw [if_pos hc] at hend; omega
    · rename_i hc; rw [if_neg hc] at hend; omega
  rw [Nat.add_zero] at hlay hmap
  have hadr : (if a = .riscv64 then (symtab + load.toNat) % 2 ^ 64 else symtab) = dynAddress (glibcRelocates a) load symtab := by
    unfold dynAddress glibcRelocates
    cases a <;> simp
  unfold readDynsym
  rw [hf]
  dsimp only
  rw [hr]
  dsimp only
  rw [hs]
  dsimp only
  rw [e6, e5, e10, hsz]
  rw [hadr, Nat.mod_eq_of_lt (by omega), Nat.add_comm strsz]
  obtain ⟨buf, hr2, hl2, hh2⟩ := memRead_full (lim := lim) (by omega) hmap
  rw [hr2]
  simp only [Option.map_some, Option.some.injEq]
  rw [Nat.mul_div_cancel_left _ (by decide)]
  apply List.ext_getElem
  · simp
  · intro k h1 h2
    rw [List.getElem_map, List.getElem_range]
    have := hsyms k _ (List.getElem?_eq_getElem h2)
    rw [hlay] at this
    exact DynSymIn.parse hh2 h2 hl2 this

end Verif
