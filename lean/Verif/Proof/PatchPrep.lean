import Verif.Proof.PatchReloc
import Verif.Spec.PatchElf
/-
From the bytes of a patch object to the image that is written to the target (C79).
-/
namespace Verif
open Cpu

theorem leBytes_getElem? : ∀ (n v j : Nat), j < n → (leBytes n v)[j]? = some (BitVec.ofNat 8 (v / 256 ^ j))
  | 0, _, _, h => by omega
  | n + 1, v, 0, _ => by simp [leBytes]
  | n + 1, v, j + 1, h => by
    simp only [leBytes, List.getElem?_cons_succ]
    rw [leBytes_getElem? n (v / 256) j (by omega), Nat.div_div_eq_div_mul, Nat.pow_succ, Nat.mul_comm]

theorem FieldAt.ld {img : List Byte} {off n v : Nat} (h : FieldAt img off n v) : ldField img off n = v := by
  have : (img.drop off).take n = leBytes n v := by
    apply List.ext_getElem?
    intro j
    by_cases hj : j < n
    · rw [List.getElem?_take_of_lt hj, List.getElem?_drop, h.2 j hj, leBytes_getElem? n v j hj]
    · rw [List.getElem?_eq_none (by simp; omega), List.getElem?_eq_none (by rw [leBytes_length]; omega)]
  unfold ldField
  rw [this, leVal_leBytes, Nat.mod_eq_of_lt h.1]

theorem cstr_of_terminated : ∀ (l s : List Byte), 0#8 ∉ s → (∀ j : Nat, j < s.length → l[j]? = s[j]?) →
    l[s.length]? = some 0#8 → cstr l = s
  | l, [], _, _, h0 => by
    cases l with
    | nil => simp at h0
    | cons x xs => simp at h0; subst h0; simp [cstr]
  | l, b :: s, hb, hs, h0 => by
    cases l with
    | nil => simp at h0
    | cons x xs =>
      have hx : x = b := by simpa using hs 0 (by simp)
      subst hx
      have hne : (x != 0) = true := by
        have : x ≠ 0#8 := fun hc => hb (by simp [hc])
        simpa [bne] using this
      have ih := cstr_of_terminated xs s (fun hc => hb (by simp [hc]))
        (fun j h => by simpa using hs (j + 1) (by simpa using h)) (by simpa using h0)
      unfold cstr at ih ⊢
      simp only [List.takeWhile_cons, hne, if_true, ih]

theorem StrAt.cstr {img : List Byte} {off : Nat} {s : CStr} (h : StrAt img off s) : Verif.cstr (img.drop off) = s := by
  apply cstr_of_terminated _ _ h.1
  · intro j hj; rw [List.getElem?_drop, List.getElem?_eq_getElem hj]; exact h.2.1 j hj
  · rw [List.getElem?_drop]; exact h.2.2

theorem ShdrAt.parse {img : List Byte} {i : Nat} {s : ElfShdr} (h : ShdrAt img (elfShoff img + 64 * i) s) : elfShdr img i = s := by
  unfold elfShdr
  dsimp only
  rw [h.name.ld, h.typ.ld, h.addr.ld, h.offset.ld, h.size.ld, h.link.ld, h.info.ld]
  simp

theorem symTypeOf_code {t : SymType} {c b : Nat} (h : t.hasCode c) : symTypeOf (16 * b + c) = t := by
  have hc : c < 16 := by cases t <;> simp only [SymType.hasCode] at h <;> omega
  unfold symTypeOf
  rw [show (16 * b + c) % 16 = c by omega]
  cases t <;> simp only [SymType.hasCode] at h <;> try (subst h; rfl)
  obtain ⟨_, h⟩ := h
  simp only [List.mem_cons, List.not_mem_nil, or_false, not_or] at h
  obtain ⟨h0, h1, h2, h3, h6, h10⟩ := h
  split <;> first | contradiction | rfl

theorem symBindOf_code {s : SymBind} {c b : Nat} (h : s.hasCode b) (hc : c < 16) : symBindOf (16 * b + c) = s := by
  unfold symBindOf
  rw [show (16 * b + c) / 16 = b by omega]
  cases s <;> simp only [SymBind.hasCode] at h <;> try (subst h; rfl)
  split <;> first | omega | rfl

theorem ElfSymAt.parse {img : List Byte} {off n : Nat} {s : Sym} (h : ElfSymAt img off n s) : elfSym img off = s := by
  obtain ⟨b, t, h1, h2, h3⟩ := h.info
  have ht : t < 16 := by
    generalize s.typ = ty at h2
    cases ty <;> simp only [SymType.hasCode] at h2 <;> omega
  unfold elfSym
  rw [h3.ld, h.shndx.ld, h.value.ld, h.size.ld, symTypeOf_code h2, symBindOf_code h1 ht]
  simp

theorem RelaAt.parse {img : List Byte} {off : Nat} {r : Rela Nat} (h : RelaAt img off r) : elfRela img off = r := by
  unfold elfRela
  have := h.typ32
  rw [h.offset.ld, h.info.ld, h.addend.ld, show (2 ^ 32 * r.sym + r.typ) % 2 ^ 32 = r.typ by omega,
    show (2 ^ 32 * r.sym + r.typ) / 2 ^ 32 = r.sym by omega]
  simp

theorem secAddrOf_eq (kpta : BitVec 64) (elfOffset : Nat) (load : BitVec 64) (o : ElfObj) (i : Nat) (hi : 1 ≤ i) :
    secAddrOf kpta elfOffset load (o.sec i) = o.runAddr (kpta + BitVec.ofNat 64 elfOffset) load i := by
  unfold secAddrOf ElfObj.runAddr
  rw [if_neg (show i ≠ 0 by omega)]
  by_cases h8 : (o.sec i).typ = 8
  · rw [if_neg (by simp [h8]), if_pos h8]
    by_cases h0 : (o.sec i).addr = 0#64
    · simp [h0]
    · simp [h0]
  · rw [if_pos h8, if_neg h8]

/-- Section `i` with its run-time address. -/
def ElfObj.runSec (o : ElfObj) (base load : BitVec 64) (i : Nat) : ElfShdr :=
  { o.sec i with addr := o.runAddr base load i }

theorem runSec_shape (o : ElfObj) (base load : BitVec 64) (i : Nat) :
    (o.runSec base load i).name = (o.sec i).name ∧ (o.runSec base load i).typ = (o.sec i).typ ∧
    (o.runSec base load i).offset = (o.sec i).offset ∧ (o.runSec base load i).size = (o.sec i).size ∧
    (o.runSec base load i).link = (o.sec i).link ∧ (o.runSec base load i).info = (o.sec i).info ∧
    (o.runSec base load i).addr = o.runAddr base load i := ⟨rfl, rfl, rfl, rfl, rfl, rfl, rfl⟩

section
variable {o : ElfObj} {img : List Byte} {w : Rela Nat → Nat}

theorem ElfObj.Encoded.shdr (E : o.Encoded img) {i : Nat} (hi : i < o.secs.length) : elfShdr img i = o.sec i := by
  apply ShdrAt.parse
  have : elfShoff img = o.shoff := E.shoff.ld
  rw [this]
  exact E.secs i hi

theorem ElfObj.Encoded.num (E : o.Encoded img) : elfShoff img = o.shoff ∧ elfShnum img = o.secs.length ∧ elfShstrndx img = o.strndx :=
  ⟨E.shoff.ld, E.shnum.ld, E.strndx.ld⟩

theorem find_symtab (W : o.WellFormed w img.length) (img' : List Byte) (hn : elfShnum img' = o.secs.length)
    (ht : ∀ i, 1 ≤ i → i < o.secs.length → (elfShdr img' i).typ = (o.sec i).typ) :
    firstSymtab img' = some o.symtab ∧ lastSymtab img' = some o.symtab := by
  obtain ⟨h1, h2, h3⟩ := W.symtab
  have hm : o.symtab ∈ elfSecIdx img' := by rw [mem_elfSecIdx, hn]; exact ⟨h1, h2⟩
  have hp : ((elfShdr img' o.symtab).typ == 2) = true := by
    rw [ht _ h1 h2]; simp [(h3 _ h1 h2).2 rfl]
  have hu : ∀ y ∈ elfSecIdx img', ((elfShdr img' y).typ == 2) = true → y = o.symtab := by
    intro y hy hpy
    rw [mem_elfSecIdx, hn] at hy
    rw [ht _ hy.1 hy.2] at hpy
    exact (h3 y hy.1 hy.2).1 (by simpa using hpy)
  exact ⟨find_unique _ _ _ hm hp hu, find_unique _ _ _ (by simpa using hm) hp (fun y hy => hu y (by simpa using hy))⟩

theorem countUndefined_eq (E : o.Encoded img) (W : o.WellFormed w img.length) :
    elfCountUndefined img = countUndefined (o.syms.map (·.2)) := by
  unfold elfCountUndefined countUndefined
  rw [(find_symtab W img E.num.2.1 fun i _ hi => by rw [E.shdr hi]).1]
  simp only [Option.getD_some, elfNumSyms]
  rw [E.shdr W.symtab.2.1, E.numSyms]
  have hnull := W.nullSym
  have : (o.syms.map (·.2)).drop 1 = (List.range' 1 (24 * o.syms.length / 24 - 1)).map fun k => ((o.syms.map (·.2)).getD k ⟨[], ⟨0, 0, 0, .notype, .loc⟩⟩) := by
    apply List.ext_getElem
    · simp
    · intro j h1 h2
      simp at h1
      simp [show j + 1 < o.syms.length by omega, Nat.add_comm]
  rw [this, List.countP_map]
  apply List.countP_congr
  intro k hk
  rw [List.mem_range'_1] at hk
  have hkl : k < o.syms.length := by omega
  rw [(E.syms k o.syms[k] (List.getElem?_eq_getElem hkl)).parse]
  simp [hkl]

/-- The image after the section addresses have been set. -/
theorem resolveShdrs_obj (E : o.Encoded img) (W : o.WellFormed w img.length) (kpta : BitVec 64) (elfOffset : Nat) (load : BitVec 64) :
    let img1 := resolveShdrs kpta elfOffset load (elfSecIdx img) img
    img1.length = img.length ∧ (elfShoff img1 = o.shoff ∧ elfShnum img1 = o.secs.length ∧ elfShstrndx img1 = o.strndx) ∧
    (∀ i, i < o.secs.length → elfShdr img1 i = o.runSec (kpta + BitVec.ofNat 64 elfOffset) load i) ∧
    ∀ k, (k < o.shoff ∨ o.shoff + 64 * o.secs.length ≤ k) → img1[k]? = img[k]? := by
  intro img1
  obtain ⟨n1, n2, n3⟩ := E.num
  have hW := W.headers
  have S := resolveShdrs_spec kpta elfOffset load img (by rw [n1]; exact hW.1) (elfSecIdx img) img (fun _ => False)
    (by intro i hi; rw [mem_elfSecIdx] at hi; omega) (by simp) (by unfold elfSecIdx; exact List.nodup_range')
    ⟨rfl, fun _ _ => rfl, by simp⟩
  have hout : ∀ k, (k < o.shoff ∨ o.shoff + 64 * o.secs.length ≤ k) → img1[k]? = img[k]? := by
    intro k hk
    apply S.other
    rintro i (hf | hi)
    · exact hf.elim
    · rw [mem_elfSecIdx] at hi; omega
  have heh := ehdr_congr img1 img fun k hk => hout k (.inl (by omega))
  refine ⟨S.len, by rw [heh.1, heh.2.1, heh.2.2]; exact ⟨n1, n2, n3⟩, ?_, hout⟩
  intro i hi
  have hsame : ∀ off n, (off + n ≤ 16 ∨ 24 ≤ off) → off + n ≤ 64 →
      ldField img1 (o.shoff + 64 * i + off) n = ldField img (o.shoff + 64 * i + off) n := by
    intro off n h1 h2
    apply ldField_congr
    intro k hk1 hk2
    apply S.other
    rintro j (hf | hj)
    · exact hf.elim
    · rw [mem_elfSecIdx] at hj
      rcases Nat.lt_trichotomy i j with hij | hij | hij <;> omega
  have hold := E.shdr hi
  unfold elfShdr at hold ⊢
  rw [heh.1, n1]
  rw [n1] at hold
  dsimp only at hold ⊢
  have e0 := hsame 0 4 (by omega) (by omega)
  rw [Nat.add_zero] at e0
  rw [e0, hsame 4 4 (by omega) (by omega), hsame 24 8 (by omega) (by omega),
    hsame 32 8 (by omega) (by omega), hsame 40 4 (by omega) (by omega), hsame 44 4 (by omega) (by omega)]
  unfold ElfObj.runSec
  rw [← hold]
  dsimp only
  congr 1
  by_cases h0 : i = 0
  · have : ldField img1 (o.shoff + 64 * i + 16) 8 = ldField img (o.shoff + 64 * i + 16) 8 := by
      apply ldField_congr
      intro k hk1 hk2
      apply S.other
      rintro j (hf | hj)
      · exact hf.elim
      · rw [mem_elfSecIdx] at hj; omega
    rw [this]
    unfold ElfObj.runAddr
    rw [if_pos h0, ← h0, ← hold]
  · have := S.addr i (.inr (by rw [mem_elfSecIdx, n2]; omega))
    rw [n1] at this
    rw [this, E.shdr hi, secAddrOf_eq _ _ _ _ _ (by omega)]
    simp

end

/-- What resolving does to every symbol but the library symbols. -/
theorem symbolResolve_runs (a : Arch) (j : BitVec 32) (resolve : CStr → BitVec 64) (f : Nat → BitVec 64)
    (base : BitVec 64) (s : PSym) (t : Option JmpTable) (s' : Sym) (t' : Option JmpTable)
    (h : symbolResolve a j resolve f base s t = some (s', t')) : s.sym.RunsAt f s' := by
  refine ⟨(symbolResolve_keeps _ _ _ _ _ _ _ _ _ h).1, (symbolResolve_keeps _ _ _ _ _ _ _ _ _ h).2.1,
    (symbolResolve_keeps _ _ _ _ _ _ _ _ _ h).2.2, ?_⟩
  unfold symbolResolve at h
  cases ht : s.sym.typ <;> rw [ht] at h <;> dsimp only at h ⊢
  case func | object =>
    intro hl
    have hw : s.sym.wanted = false := by
      cases hw : s.sym.wanted with
      | false => rfl
      | true =>
        refine absurd ⟨by simp [ht], ?_⟩ hl
        unfold Sym.wanted at hw
        simpa using hw
    rw [hw] at h
    simp only [Bool.false_eq_true, if_false, Option.some.injEq, Prod.mk.injEq] at h
    rw [← h.1]
  all_goals first
    | (simp only [Option.some.injEq, Prod.mk.injEq] at h; rw [← h.1]; try intro _; try rfl)
    | simp at h

theorem resolveSyms_runs (a : Arch) (junk : Nat → BitVec 32) (resolve : CStr → BitVec 64) (f : Nat → BitVec 64)
    (base : BitVec 64) : ∀ (ss : List PSym) (i : Nat) (t : Option JmpTable) (ss' : List Sym) (t' : Option JmpTable),
      resolveSyms a junk resolve f base i ss t = some (ss', t') →
      ss'.length = ss.length ∧ ∀ (k : Nat) (s : PSym), ss[k]? = some s → ∃ s', ss'[k]? = some s' ∧ s.sym.RunsAt f s'
  | [], i, t, ss', t', h => by
    simp only [resolveSyms, Option.some.injEq, Prod.mk.injEq] at h
    rw [← h.1]
    exact ⟨rfl, by simp⟩
  | s :: ss, i, t, ss', t', h => by
    unfold resolveSyms at h
    cases h1 : symbolResolve a (junk i) resolve f base s t with
    | none => rw [h1] at h; simp at h
    | some q =>
      obtain ⟨x, t1⟩ := q
      rw [h1] at h
      dsimp only at h
      cases h2 : resolveSyms a junk resolve f base (i + 1) ss t1 with
      | none => rw [h2] at h; simp at h
      | some q =>
        obtain ⟨xs, t2⟩ := q
        rw [h2] at h
        simp only [Option.some.injEq, Prod.mk.injEq] at h
        obtain ⟨rfl, rfl⟩ := h
        obtain ⟨hl, hall⟩ := resolveSyms_runs a junk resolve f base ss (i + 1) t1 xs t2 h2
        refine ⟨by simp [hl], ?_⟩
        intro k y hk
        cases k with
        | zero =>
          simp only [List.getElem?_cons_zero, Option.some.injEq] at hk
          subst hk
          exact ⟨x, rfl, symbolResolve_runs _ _ _ _ _ _ _ _ _ h1⟩
        | succ k => exact hall k y (by simpa using hk)

/-- The section table as `kpatchResolve` takes it. -/
def ElfObj.psecs (o : ElfObj) : List PSec := o.secs.map fun s => ⟨s.typ == 8, s.addr, s.offset⟩

/-- The section addresses `kpatchResolve` computes are the run-time addresses. -/
theorem psecs_addr (o : ElfObj) (kpta : BitVec 64) (elfOffset : Nat) (load : BitVec 64) (i : Nat) (hi : i < o.secs.length) :
    (if i = 0 then (o.psecs[0]?.map PSec.addr).getD 0#64
      else (o.psecs[i]?.map (resolveSection kpta elfOffset load)).getD 0#64) =
      o.runAddr (kpta + BitVec.ofNat 64 elfOffset) load i := by
  unfold ElfObj.psecs ElfObj.runAddr
  have hsec : o.sec i = o.secs[i] := by unfold ElfObj.sec; simp [hi]
  by_cases h0 : i = 0
  · subst h0
    rw [if_pos rfl, if_pos rfl, hsec]
    simp [hi]
  · rw [if_neg h0, if_neg h0, hsec]
    simp only [List.getElem?_map, List.getElem?_eq_getElem hi, Option.map_some, Option.getD_some]
    unfold resolveSection
    dsimp only
    by_cases h8 : o.secs[i].typ = 8
    · by_cases ha : o.secs[i].addr = 0#64
      · simp [h8, ha]
      · simp [h8, ha]
    · simp [h8]

/-- The image after the symbols have been resolved: the symbols are those of `kpatchResolve`, and nothing but
section headers, symbols and symbol names has changed. -/
structure ResolvedImg (o : ElfObj) (base load : BitVec 64) (img img2 : List Byte) (syms' : List Sym) : Prop where
  len : img2.length = img.length
  num : elfShoff img2 = o.shoff ∧ elfShnum img2 = o.secs.length ∧ elfShstrndx img2 = o.strndx
  shdr : ∀ i, i < o.secs.length → elfShdr img2 i = o.runSec base load i
  symLen : syms'.length = o.syms.length
  sym : ∀ k, k < o.syms.length → syms'[k]? = some (elfSym img2 ((o.sec o.symtab).offset + 24 * k))
  runs : ∀ (k : Nat) (s : Nat × PSym), o.syms[k + 1]? = some s → ∃ s', syms'[k + 1]? = some s' ∧ s.2.sym.RunsAt (o.runAddr base load) s'
  sym0 : syms'[0]? = o.syms[0]?.map (·.2.sym)
  keep : ∀ k, (k < o.shoff ∨ o.shoff + 64 * o.secs.length ≤ k) →
    (k < (o.sec o.symtab).offset ∨ (o.sec o.symtab).offset + (o.sec o.symtab).size ≤ k) →
    (k < (o.sec (o.sec o.symtab).link).offset ∨
      (o.sec (o.sec o.symtab).link).offset + (o.sec (o.sec o.symtab).link).size ≤ k) → img2[k]? = img[k]?

section
variable {o : ElfObj} {img : List Byte} {w : Rela Nat → Nat}

theorem RunsAt_congr {f g : Nat → BitVec 64} {s s' : Sym} (h : f s.shndx = g s.shndx) (hr : s.RunsAt f s') : s.RunsAt g s' := by
  unfold Sym.RunsAt at *
  rw [← h]
  exact hr

theorem resolveElf_both (E : o.Encoded img) (W : o.WellFormed w img.length) (a : Arch) (junk : Nat → BitVec 32)
    (resolve : CStr → BitVec 64) (hres : ∀ x y, unversioned x = unversioned y → resolve x = resolve y)
    (kpta : BitVec 64) (jmpOffset elfOffset : Nat) (load : BitVec 64) (R : Option (List Byte × Option JmpTable))
    (h : resolveElf a junk resolve kpta jmpOffset elfOffset load img = R) :
    (R = none → kpatchResolve a junk resolve kpta jmpOffset elfOffset load o.psecs (o.syms.map (·.2)) = none) ∧
    ∀ img2 t, R = some (img2, t) → ∃ syms', kpatchResolve a junk resolve kpta jmpOffset elfOffset load o.psecs (o.syms.map (·.2)) = some (syms', t) ∧
      ResolvedImg o (kpta + BitVec.ofNat 64 elfOffset) load img img2 syms' := by
  unfold resolveElf at h
  dsimp only at h
  obtain ⟨l1, ⟨n1, n2, n3⟩, sh1, out1⟩ := resolveShdrs_obj E W kpta elfOffset load
  generalize resolveShdrs kpta elfOffset load (elfSecIdx img) img = img1 at *
  obtain ⟨s1, s2, s3⟩ := W.symtab
  obtain ⟨k1, k2, k3, k4⟩ := W.strtab
  have hW := W.headers
  rw [(find_symtab W img1 n2 fun i _ hi => by rw [sh1 i hi]; rfl).2] at h
  dsimp only at h
  rw [sh1 _ s2] at h
  have esz : elfNumSyms img1 o.symtab = o.syms.length := by
    unfold elfNumSyms
    rw [sh1 _ s2]
    simp only [ElfObj.runSec]
    rw [E.numSyms]
    omega
  rw [esz] at h
  rw [show (o.runSec (kpta + BitVec.ofNat 64 elfOffset) load o.symtab).link = (o.sec o.symtab).link from rfl,
    show (o.runSec (kpta + BitVec.ofNat 64 elfOffset) load o.symtab).offset = (o.sec o.symtab).offset from rfl,
    sh1 _ k2,
    show (o.runSec (kpta + BitVec.ofNat 64 elfOffset) load (o.sec o.symtab).link).offset = (o.sec (o.sec o.symtab).link).offset from rfl,
    countUndefined_eq E W] at h
  have hnull := W.nullSym
  have fsym : o.inFile o.symtab := ⟨s1, s2, by rw [(s3 _ s1 s2).2 rfl]; omega⟩
  have fstr : o.inFile (o.sec o.symtab).link := ⟨k1, k2, by rw [k3]; omega⟩
  have hne : o.symtab ≠ (o.sec o.symtab).link := by
    intro hc
    have := (s3 _ s1 s2).2 rfl
    rw [hc] at this
    rw [this] at k3
    omega
  have ap := W.apart _ _ fsym fstr hne
  obtain ⟨f1, f2, f3⟩ := W.fits _ fsym
  obtain ⟨g1, g2, g3⟩ := W.fits _ fstr
  have hsz := E.numSyms
  -- what the symbol pass reads is as in the file
  have hsym1 : ∀ k, k < o.syms.length → elfSym img1 ((o.sec o.symtab).offset + 24 * k) =
      elfSym img ((o.sec o.symtab).offset + 24 * k) := by
    intro k hk
    apply elfSym_congr
    intro j h1 h2
    exact out1 j (by omega)
  have hnm1 : ∀ k, k < o.syms.length → ldField img1 ((o.sec o.symtab).offset + 24 * k) 4 =
      ldField img ((o.sec o.symtab).offset + 24 * k) 4 := by
    intro k hk
    apply ldField_congr
    intro j h1 h2
    exact out1 j (by omega)
  have S : SymtabAt img1 o.secs.length (o.sec o.symtab).offset o.syms.length (o.sec (o.sec o.symtab).link).offset
      (o.sec (o.sec o.symtab).link).size := by
    constructor
    · rw [n1]; exact hW.1
    · exact f1
    · exact g1
    · rw [l1]; omega
    · rw [l1]; omega
    · rw [n1]; omega
    · rw [n1]; omega
    · omega
    · exact k4
    · rw [out1 _ (by omega)]; exact E.strEnd _ (.inr rfl)
    · intro k h1 h2
      rw [hnm1 k h2, (E.syms k _ (List.getElem?_eq_getElem h2)).name.ld]
      exact W.symNames k _ (List.getElem?_eq_getElem h2)
    · intro k h1 h2
      rw [hsym1 k h2, (E.syms k _ (List.getElem?_eq_getElem h2)).parse]
      exact W.symSecs k _ (List.getElem?_eq_getElem h2)
  let secAddr : Nat → BitVec 64 := fun i => if i = 0 then (o.psecs[0]?.map PSec.addr).getD 0#64
      else (o.psecs[i]?.map (resolveSection kpta elfOffset load)).getD 0#64
  obtain ⟨q0, q1⟩ := resolveSymtab_spec a junk resolve (kpta + BitVec.ofNat 64 jmpOffset) hres secAddr img1
    o.secs.length _ o.syms.length _ _ S (by
      intro i hi
      rw [sh1 i hi]
      exact psecs_addr o kpta elfOffset load i hi) R (o.syms.length - 1) 1 img1 _ (fun k => elfSym img1 ((o.sec o.symtab).offset + 24 * k))
      (by omega) (by omega) ⟨rfl, fun _ _ => .inl rfl, by omega⟩ h
  have hlist : ((List.range' 1 (o.syms.length - 1)).map fun k => (⟨elfSymName img1 (o.sec (o.sec o.symtab).link).offset
      ((o.sec o.symtab).offset + 24 * k), elfSym img1 ((o.sec o.symtab).offset + 24 * k)⟩ : PSym)) = (o.syms.map (·.2)).drop 1 := by
    apply List.ext_getElem
    · simp
    · intro j h1 h2
      simp only [List.length_map, List.length_range'] at h1
      have hj : 1 + j < o.syms.length := by omega
      have e := E.syms (1 + j) _ (List.getElem?_eq_getElem hj)
      have en := E.symNames (1 + j) _ (List.getElem?_eq_getElem hj)
      simp only [List.getElem_map, List.getElem_range', List.getElem_drop, Nat.one_mul]
      rw [hsym1 _ hj, e.parse]
      unfold elfSymName
      rw [hnm1 _ hj, e.name.ld]
      have := W.symNames _ _ (List.getElem?_eq_getElem hj)
      have hc : cstr (img1.drop ((o.sec (o.sec o.symtab).link).offset + o.syms[1 + j].1)) = o.syms[1 + j].2.name := by
        rw [← en.cstr]
        symm
        apply cstr_drop_congr _ _ _ ((o.sec (o.sec o.symtab).link).offset + (o.sec (o.sec o.symtab).link).size - 1) (by omega)
          (E.strEnd _ (.inr rfl))
        intro k hk1 hk2
        exact (out1 k (by omega)).symm
      rw [hc]
  rw [hlist] at q0
  constructor
  · intro hR
    replace q0 := q0 hR
    cases hsy : o.syms with
    | nil => rw [hsy] at hnull; simp at hnull
    | cons s0 ss =>
      rw [hsy] at q0
      simp only [List.map_cons, List.drop_succ_cons, List.drop_zero] at q0
      unfold kpatchResolve
      simp only [List.map_cons]
      rw [show (fun i => if i = 0 then (o.psecs[0]?.map PSec.addr).getD 0#64
        else (o.psecs[i]?.map (resolveSection kpta elfOffset load)).getD 0#64) = secAddr from rfl]
      rw [q0]
  intro img2 t hR
  obtain ⟨ss', val', q1, q2, q3, q4⟩ := q1 img2 t hR
  rw [hlist] at q1
  obtain ⟨r1, r2⟩ := resolveSyms_runs _ _ _ _ _ _ _ _ _ _ q1
  cases hsy : o.syms with
  | nil => rw [hsy] at hnull; simp at hnull
  | cons s0 ss =>
    rw [hsy] at q1
    simp only [List.map_cons, List.drop_succ_cons, List.drop_zero] at q1
    refine ⟨s0.2.sym :: ss', ?_, ?_⟩
    · unfold kpatchResolve
      simp only [List.map_cons]
      rw [show (fun i => if i = 0 then (o.psecs[0]?.map PSec.addr).getD 0#64
        else (o.psecs[i]?.map (resolveSection kpta elfOffset load)).getD 0#64) = secAddr from rfl]
      rw [q1]
    · have hl2 : ss'.length = o.syms.length - 1 := by rw [r1]; simp
      have hkeep : ∀ k, (k < (o.sec o.symtab).offset + 24 ∨ (o.sec o.symtab).offset + (o.sec o.symtab).size ≤ k) →
          (k < (o.sec (o.sec o.symtab).link).offset ∨
            (o.sec (o.sec o.symtab).link).offset + (o.sec (o.sec o.symtab).link).size ≤ k) → img2[k]? = img1[k]? := by
        intro k h1 h2
        rcases q4.other k (by intro i hi1 hi2; omega) with hx | ⟨_, _, h3, h4⟩
        · exact hx
        · omega
      have hh2 := ehdr_congr img2 img1 fun k hk => hkeep k (by omega) (by omega)
      constructor
      · rw [q4.len, l1]
      · rw [hh2.1, hh2.2.1, hh2.2.2]; exact ⟨n1, n2, n3⟩
      · intro i hi
        rw [← sh1 i hi]
        apply elfShdr_congr _ _ _ hh2.1
        intro k hk1 hk2
        exact hkeep k (by omega) (by omega)
      · simp [hl2]; omega
      · intro k hk
        cases k with
        | zero =>
          have e := E.syms 0 s0 (by rw [hsy]; rfl)
          simp only [List.getElem?_cons_zero, Option.some.injEq]
          rw [← e.parse, ← hsym1 0 hnull]
          symm
          apply elfSym_congr
          intro j h1 h2
          exact hkeep j (by omega) (by omega)
        | succ k =>
          rw [List.getElem?_cons_succ, q3 k (by omega), Nat.add_comm 1 k]
          rw [q4.done (k + 1) (by omega) hk]
      · intro k s hk
        obtain ⟨s', h1, h2⟩ := r2 k s.2 (by
          rw [List.getElem?_drop, List.getElem?_map, Nat.add_comm, hk]; rfl)
        refine ⟨s', by simpa using h1, RunsAt_congr ?_ h2⟩
        exact psecs_addr o kpta elfOffset load _ (W.symSecs _ _ hk)
      · rw [hsy]; rfl
      · intro k h1 h2 h3
        rw [hkeep k (by omega) h3, out1 k h1]

end

section
variable {o : ElfObj} {img : List Byte} {w : Rela Nat → Nat}

theorem resolveElf_obj (E : o.Encoded img) (W : o.WellFormed w img.length) (a : Arch) (junk : Nat → BitVec 32)
    (resolve : CStr → BitVec 64) (hres : ∀ x y, unversioned x = unversioned y → resolve x = resolve y)
    (kpta : BitVec 64) (jmpOffset elfOffset : Nat) (load : BitVec 64) (img2 : List Byte) (t : Option JmpTable)
    (h : resolveElf a junk resolve kpta jmpOffset elfOffset load img = some (img2, t)) :
    ∃ syms', kpatchResolve a junk resolve kpta jmpOffset elfOffset load o.psecs (o.syms.map (·.2)) = some (syms', t) ∧
      ResolvedImg o (kpta + BitVec.ofNat 64 elfOffset) load img img2 syms' :=
  (resolveElf_both E W a junk resolve hres kpta jmpOffset elfOffset load _ h).2 _ _ rfl

/-- If the symbols can be resolved, the image is resolved. -/
theorem resolveElf_runs (E : o.Encoded img) (W : o.WellFormed w img.length) (a : Arch) (junk : Nat → BitVec 32)
    (resolve : CStr → BitVec 64) (hres : ∀ x y, unversioned x = unversioned y → resolve x = resolve y)
    (kpta : BitVec 64) (jmpOffset elfOffset : Nat) (load : BitVec 64)
    (h : kpatchResolve a junk resolve kpta jmpOffset elfOffset load o.psecs (o.syms.map (·.2)) ≠ none) :
    ∃ img2 t, resolveElf a junk resolve kpta jmpOffset elfOffset load img = some (img2, t) := by
  cases hr : resolveElf a junk resolve kpta jmpOffset elfOffset load img with
  | none => exact absurd ((resolveElf_both E W a junk resolve hres kpta jmpOffset elfOffset load _ hr).1 rfl) h
  | some q => exact ⟨q.1, q.2, rfl⟩

end

/-- What the relocation code knows about the section that section `i` relocates. -/
def ElfObj.relSec (o : ElfObj) (base load : BitVec 64) (i : Nat) : RelSec :=
  { fileOff := (o.sec (o.sec i).info).offset, size := (o.sec (o.sec i).info).size
    addr := o.runAddr base load (o.sec i).info
    isInfo := strcmp (o.secName (o.sec i).info) (lit ".kpatch.info") == 0 }

/-- The relocations of section `i` before the `k`-th and their symbols, the nearest first. -/
def ElfObj.before (o : ElfObj) (syms : List Sym) (i k : Nat) : List (Rela Nat × Sym) :=
  ((o.rels i).take k).reverse.map fun r => (r, syms.getD r.sym ⟨0, 0, 0, .notype, .loc⟩)

/-- The image that is written to the target: every field has the bytes the relocation code computes for it, all
other bytes of code and data are as in the file. -/
structure PreparedImg (o : ElfObj) (ra : RelocArch) (w : Rela Nat → Nat) (base load : BitVec 64) (img img' : List Byte)
    (syms' : List Sym) : Prop where
  len : img'.length = img.length
  fields : ∀ i, o.isRela i → ∀ k r, (o.rels i)[k]? = some r → ∃ bs,
    ra.act (o.relSec base load i) (o.before syms' i k) r (syms'.getD r.sym ⟨0, 0, 0, .notype, .loc⟩) (img.drop (o.place i r)) = .write bs ∧
      bytesAt img' (o.place i r) bs.length = bs
  other : ∀ k, (k < o.shoff ∨ o.shoff + 64 * o.secs.length ≤ k) →
    ¬ o.InSection o.symtab k → ¬ o.InSection (o.sec o.symtab).link k → ¬ o.Relocated w k → img'[k]? = img[k]?

section
variable {o : ElfObj} {img : List Byte} {w : Rela Nat → Nat}

theorem PreparedImg.field {ra : RelocArch} {base load : BitVec 64} {img' : List Byte} {syms' : List Sym}
    (P : PreparedImg o ra w base load img img' syms') (i : Nat) (hi : o.isRela i) (r : Rela Nat) (hr : r ∈ o.rels i) : ∃ e bs,
    ra.act (o.relSec base load i) e r (syms'.getD r.sym ⟨0, 0, 0, .notype, .loc⟩) (img.drop (o.place i r)) = .write bs ∧
      bytesAt img' (o.place i r) bs.length = bs := by
  obtain ⟨k, hk, rfl⟩ := List.getElem_of_mem hr
  exact ⟨_, P.fields i hi k _ (List.getElem?_eq_getElem hk)⟩

theorem relocate_obj (E : o.Encoded img) (W : o.WellFormed w img.length) (ra : RelocArch) (jbase : BitVec 64) (t : Option JmpTable) (hl : ∀ sec e, LocalAct (ra.act sec e) w)
    (base load : BitVec 64) (img2 : List Byte) (syms' : List Sym) (R : ResolvedImg o base load img img2 syms')
    (hns : ∀ i, o.isRela i → ∀ r ∈ o.rels i, ra.Simple r (syms'.getD r.sym ⟨0, 0, 0, .notype, .loc⟩)) :
    ((o.sec 0).typ ≠ 9 → (∀ i, o.isRela i → ∀ k r, (o.rels i)[k]? = some r → r.offset < (o.sec (o.sec i).info).size ∧
        ra.act (o.relSec base load i) (o.before syms' i k) r (syms'.getD r.sym ⟨0, 0, 0, .notype, .loc⟩) (img.drop (o.place i r)) ≠ .fail) →
      (relocateElf ra jbase (elfSecIdx img2) (img2, t)).2 = true) ∧
    ((relocateElf ra jbase (elfSecIdx img2) (img2, t)).2 = true →
      PreparedImg o ra w base load img (relocateElf ra jbase (elfSecIdx img2) (img2, t)).1.1 syms' ∧
        (relocateElf ra jbase (elfSecIdx img2) (img2, t)).1.2 = t) := by
  obtain ⟨s1, s2, s3⟩ := W.symtab
  obtain ⟨k1, k2, k3, k4⟩ := W.strtab
  obtain ⟨x1, x2, x3, x4, x5⟩ := W.shstrtab
  obtain ⟨n1, n2, n3⟩ := R.num
  have hW := W.headers
  have tsym : (o.sec o.symtab).typ = 2 := (s3 _ s1 s2).2 rfl
  have fsym : o.inFile o.symtab := ⟨s1, s2, by omega⟩
  have fstr : o.inFile (o.sec o.symtab).link := ⟨k1, k2, by omega⟩
  have fshs : o.inFile o.strndx := ⟨x1, x2, by omega⟩
  -- bytes of the other sections of the file are unchanged
  have hkeep : ∀ i, o.inFile i → i ≠ o.symtab → i ≠ (o.sec o.symtab).link → ∀ k, (o.sec i).offset ≤ k →
      k < (o.sec i).offset + (o.sec i).size → img2[k]? = img[k]? := by
    intro i hi h1 h2 k hk1 hk2
    have a1 := W.apart i _ hi fsym h1
    have a2 := W.apart i _ hi fstr h2
    have a3 := W.fits i hi
    exact R.keep k (by omega) (by omega) (by omega)
  have frela : ∀ i, o.isRela i → o.inFile i ∧ i ≠ o.symtab ∧ i ≠ (o.sec o.symtab).link ∧ i ≠ o.strndx := by
    intro i hi
    have := hi.2.2
    refine ⟨⟨hi.1, hi.2.1, by omega⟩, ?_, ?_, ?_⟩ <;> (intro hc; rw [hc] at this; omega)
  have ftgt : ∀ i, o.isRela i → o.inFile (o.sec i).info ∧ (o.sec i).info ≠ o.symtab ∧
      (o.sec i).info ≠ (o.sec o.symtab).link ∧ (o.sec i).info ≠ o.strndx ∧ ∀ j, o.isRela j → (o.sec i).info ≠ j := by
    intro i hi
    obtain ⟨t1, t2, t3⟩ := W.target i hi
    simp only [List.mem_cons, List.not_mem_nil, or_false, not_or] at t3
    refine ⟨⟨t1, t2, by omega⟩, ?_, ?_, ?_, ?_⟩
    · intro hc; rw [hc] at t3; omega
    · intro hc; rw [hc] at t3; omega
    · intro hc; rw [hc] at t3; omega
    · intro j hj hc; rw [hc] at t3; have := hj.2.2; omega
  have hrela : ∀ i, IsRela img2 i ↔ o.isRela i := by
    intro i
    unfold IsRela ElfObj.isRela
    rw [n2]
    constructor
    · rintro ⟨h1, h2, h3⟩; rw [R.shdr i h2] at h3; exact ⟨h1, h2, h3⟩
    · rintro ⟨h1, h2, h3⟩; rw [R.shdr i h2]; exact ⟨h1, h2, h3⟩
  have hin : ∀ i, i < o.secs.length → ∀ k, InSec img2 i k ↔ (o.sec i).offset ≤ k ∧ k < (o.sec i).offset + (o.sec i).size := by
    intro i hi k
    unfold InSec
    rw [R.shdr i hi]
    exact Iff.rfl
  have hinfo : ∀ i, o.isRela i → (elfShdr img2 i).info = (o.sec i).info := by
    intro i hi; rw [R.shdr i hi.2.1]; rfl
  have hname : ∀ i, 1 ≤ i → i < o.secs.length → elfSecName img2 i = o.secName i := by
    intro i h1 h2
    unfold elfSecName
    rw [n3, R.shdr _ x2, R.shdr i h2]
    rw [← (E.secNames i h1 h2).cstr]
    symm
    have hs := W.secNames i h1 h2
    apply cstr_drop_congr _ _ _ ((o.sec o.strndx).offset + (o.sec o.strndx).size - 1)
    · omega
    · exact E.strEnd _ (.inl rfl)
    · intro k hk1 hk2
      exact (hkeep _ fshs (by intro hc; rw [hc] at x3; omega) x5 k (by omega) (by omega)).symm
  have hsec : ∀ i, o.isRela i → secOf img2 i = o.relSec base load i := by
    intro i hi
    have t := (ftgt i hi).1
    unfold secOf ElfObj.relSec
    rw [hinfo i hi, R.shdr _ t.2.1, hname _ t.1 t.2.1]
    rfl
  have hcnt : ∀ i, o.isRela i → (elfShdr img2 i).size / 24 = (o.rels i).length := by
    intro i hi
    rw [R.shdr i hi.2.1]
    simp only [ElfObj.runSec]
    rw [E.numRels i hi]
    omega
  have hrel : ∀ i, o.isRela i → ∀ k (hk : k < (o.rels i).length), relaOf img2 i k = (o.rels i)[k] := by
    intro i hi k hk
    unfold relaOf
    rw [R.shdr i hi.2.1]
    simp only [ElfObj.runSec]
    rw [← (E.rels i hi k _ (List.getElem?_eq_getElem hk)).parse]
    apply elfRela_congr
    intro j h1 h2
    have f := frela i hi
    have := E.numRels i hi
    exact hkeep i f.1 f.2.1 f.2.2.1 j (by omega) (by omega)
  have hnsym : (elfShdr img2 o.symtab).size / 24 = o.syms.length := by
    rw [R.shdr _ s2]
    simp only [ElfObj.runSec]
    rw [E.numSyms]
    omega
  have RO : RelocsOk w img2 o.symtab := by
    constructor
    · refine ⟨s1, by rw [n2]; exact s2, ?_⟩
      rw [R.shdr _ s2]; exact tsym
    · intro j h1 h2 h3
      rw [n2] at h2
      rw [R.shdr j h2] at h3
      exact (s3 j h1 h2).1 h3
    · rw [n3, n2, R.shdr _ x2]
      refine ⟨x2, x4, ?_⟩
      simp only [ElfObj.runSec]
      rw [hkeep _ fshs (by intro hc; rw [hc] at x3; omega) x5 _ (by omega) (by omega)]
      exact E.strEnd _ (.inl rfl)
    · intro i h1 h2
      rw [n2] at h2
      rw [n3, R.shdr i h2, R.shdr _ x2]
      exact W.secNames i h1 h2
    · intro i hi
      rw [hrela] at hi
      have t := ftgt i hi
      rw [hinfo i hi, hsec i hi, n2, R.len]
      exact ⟨t.1.1, t.1.2.1, (W.fits _ t.1).2.1⟩
    · intro i hi k hk hm
      rw [hrela] at hi
      have t := ftgt i hi
      rw [hinfo i hi, hin _ t.1.2.1] at hk
      have ft := W.fits _ t.1
      rcases hm with hm | hm | hm | hm | ⟨j, hj, hm⟩
      · omega
      · rw [n1, n2] at hm; omega
      · rw [hin _ s2] at hm
        have := W.apart _ _ t.1 fsym t.2.1
        omega
      · rw [n3, hin _ x2] at hm
        have := W.apart _ _ t.1 fshs t.2.2.2.1
        omega
      · rw [hrela] at hj
        have fj := frela j hj
        rw [hin _ fj.1.2.1] at hm
        have := W.apart _ _ t.1 fj.1 (t.2.2.2.2 j hj)
        omega
    · intro i j hi hj hij k
      rw [hrela] at hi hj
      have ti := ftgt i hi
      have tj := ftgt j hj
      rw [hinfo i hi, hinfo j hj, hin _ ti.1.2.1, hin _ tj.1.2.1]
      have := W.apart _ _ ti.1 tj.1 (W.targets i j hi hj hij)
      omega
    · intro i hi k hk
      rw [hrela] at hi
      rw [hcnt i hi] at hk
      rw [hrel i hi k hk, hsec i hi, hnsym]
      exact ⟨W.relSyms i hi _ (List.getElem_mem hk), W.relFits i hi _ (List.getElem_mem hk)⟩
    · intro i hi k k' hkk hk'
      rw [hrela] at hi
      rw [hcnt i hi] at hk'
      rw [hrel i hi k (by omega), hrel i hi k' hk']
      exact List.pairwise_iff_getElem.1 (W.relApart i hi) k k' (by omega) hk' hkk
  have hsymOf : ∀ i, o.isRela i → ∀ k (hk : k < (o.rels i).length),
      symOf img2 o.symtab i k = syms'.getD (o.rels i)[k].sym ⟨0, 0, 0, .notype, .loc⟩ := by
    intro i hi k hk
    unfold symOf
    rw [hrel i hi k hk, R.shdr _ s2]
    have hb := W.relSyms i hi _ (List.getElem_mem hk)
    rw [List.getD_eq_getElem?_getD, R.sym _ hb]
    rfl
  have hplace : ∀ i, o.isRela i → ∀ k (hk : k < (o.rels i).length), placeOf img2 i k = o.place i (o.rels i)[k] := by
    intro i hi k hk
    unfold placeOf
    rw [hsec i hi, hrel i hi k hk]
    rfl
  have hns' : ∀ i, IsRela img2 i → ∀ k, k < (elfShdr img2 i).size / 24 → ra.Simple (relaOf img2 i k) (symOf img2 o.symtab i k) := by
    intro i hi k hk
    rw [hrela] at hi
    rw [hcnt i hi] at hk
    rw [hrel i hi k hk, hsymOf i hi k hk]
    exact hns i hi _ (List.getElem_mem hk)
  have hbefore : ∀ i, o.isRela i → ∀ k, k < (o.rels i).length → beforeOf img2 o.symtab i k = o.before syms' i k := by
    intro i hi k hk
    unfold beforeOf relasBefore ElfObj.before
    have e : (o.rels i).take k = (List.range k).map fun j => (o.rels i).getD j ⟨0, 0, 0, 0⟩ := by
      apply List.ext_getElem
      · simp; omega
      · intro j h1 h2
        simp at h1 h2 ⊢
        rw [List.getElem?_eq_getElem (by omega)]
        rfl
    rw [e, ← List.map_reverse, List.map_map]
    apply List.map_congr_left
    intro j hj
    have hj : j < k := by simpa using hj
    have hjk : j < (o.rels i).length := by omega
    have hg : (o.rels i).getD j ⟨0, 0, 0, 0⟩ = (o.rels i)[j] := by
      rw [List.getD_eq_getElem?_getD, List.getElem?_eq_getElem hjk]; rfl
    rw [Function.comp_apply, hg, ← hsymOf i hi j hjk, ← hrel i hi j hjk]
    rfl
  have hdata : ∀ i, o.isRela i → ∀ k (hk : k < (o.rels i).length),
      bytesAt img (o.place i (o.rels i)[k]) (w (o.rels i)[k]) = bytesAt img2 (o.place i (o.rels i)[k]) (w (o.rels i)[k]) := by
    intro i hi k hk
    apply bytesAt_congr img img2
    intro j h1 h2
    have t := ftgt i hi
    have hf := W.relFits i hi _ (List.getElem_mem hk)
    symm
    unfold ElfObj.place at h1 h2
    exact hkeep _ t.1 t.2.1 t.2.2.1 j (by omega) (by omega)
  constructor
  · intro h0 hfit
    refine relocateElf_runs ra jbase hl RO hns' (by rw [R.shdr 0 (by omega)]; exact h0) ?_ (elfSecIdx img2) img2 t (fun _ => False)
      (by unfold elfSecIdx; exact List.nodup_range') (by simp)
      (by intro i hi; exact (mem_elfSecIdx img2 i).1 hi) ⟨rfl, by simp, fun _ _ => rfl⟩
    intro i hi k hk
    rw [hrela] at hi
    rw [hcnt i hi] at hk
    rw [hplace i hi k hk, hsec i hi, hrel i hi k hk, hsymOf i hi k hk, hbefore i hi k hk]
    obtain ⟨f1, f2⟩ := hfit i hi k _ (List.getElem?_eq_getElem hk)
    refine ⟨f1, ?_⟩
    rwa [← (hl _ _).reads _ _ _ _ (hdata i hi k hk)]
  intro hok
  obtain ⟨D, DT⟩ := relocateElf_spec ra jbase hl RO hns'
    (elfSecIdx img2) img2 t (fun _ => False) (by unfold elfSecIdx; exact List.nodup_range') (by simp)
    (by intro i hi; exact (mem_elfSecIdx img2 i).1 hi) ⟨rfl, by simp, fun _ _ => rfl⟩ hok
  refine ⟨?_, DT⟩
  generalize (relocateElf ra jbase (elfSecIdx img2) (img2, t)).1.1 = img' at *
  constructor
  · rw [D.len, R.len]
  · intro i hi k r hr
    obtain ⟨hk, rfl⟩ := List.getElem?_eq_some_iff.1 hr
    obtain ⟨bs, b1, b2⟩ := D.fields i ((hrela i).2 hi) (.inr ((mem_elfSecIdx img2 i).2 (by rw [n2]; exact ⟨hi.1, hi.2.1⟩))) k
      (by rw [hcnt i hi]; exact hk)
    rw [hplace i hi k hk] at b1 b2
    rw [hsec i hi, hrel i hi k hk, hsymOf i hi k hk, hbefore i hi k hk] at b1
    refine ⟨bs, ?_, b2⟩
    rw [← b1]
    exact (hl _ _).reads _ _ _ _ (hdata i hi k hk)
  · intro k h1 h2 h3 h4
    rw [D.other k (by
      intro i hi _ j hj
      rw [hrela] at hi
      rw [hcnt i hi] at hj
      rw [hplace i hi j hj, hrel i hi j hj]
      by_cases hc : k < o.place i (o.rels i)[j] ∨ o.place i (o.rels i)[j] + w (o.rels i)[j] ≤ k
      · exact hc
      · exact absurd ⟨i, hi, _, List.getElem_mem hj, by omega, by omega⟩ h4)]
    apply R.keep k h1
    · by_cases hc : k < (o.sec o.symtab).offset ∨ (o.sec o.symtab).offset + (o.sec o.symtab).size ≤ k
      · exact hc
      · exact absurd ⟨fsym, by omega, by omega⟩ h2
    · by_cases hc : k < (o.sec (o.sec o.symtab).link).offset ∨
          (o.sec (o.sec o.symtab).link).offset + (o.sec (o.sec o.symtab).link).size ≤ k
      · exact hc
      · exact absurd ⟨fstr, by omega, by omega⟩ h3

theorem allSimple {ra : RelocArch} (W : o.WellFormed w img.length) {base load : BitVec 64} {img2 : List Byte} {syms' : List Sym}
    (hns : ∀ i, o.isRela i → ∀ r ∈ o.rels i, ∀ p s, o.syms[r.sym]? = some p → p.2.sym.shndx = s.shndx →
      p.2.sym.typ = s.typ → p.2.sym.bind = s.bind → ra.Simple r s)
    (R : ResolvedImg o base load img img2 syms') : ∀ i, o.isRela i → ∀ r ∈ o.rels i,
      ra.Simple r (syms'.getD r.sym ⟨0, 0, 0, .notype, .loc⟩) := by
  intro i hi r hr
  have hb := W.relSyms i hi r hr
  obtain ⟨p, hget⟩ : ∃ p, o.syms[r.sym]? = some p := ⟨_, List.getElem?_eq_getElem hb⟩
  cases hk : r.sym with
  | zero =>
    have h0 := R.sym0
    rw [hk] at hget
    rw [hget] at h0
    rw [List.getD_eq_getElem?_getD, h0]
    refine hns i hi r hr _ _ (by rw [hk]; exact hget) rfl rfl rfl
  | succ k =>
    rw [hk] at hget
    obtain ⟨s', e1, e2⟩ := R.runs k _ hget
    rw [List.getD_eq_getElem?_getD, e1]
    exact hns i hi r hr _ _ (by rw [hk]; exact hget) e2.1.symm e2.2.1.symm e2.2.2.1.symm

theorem prepareElf_obj (E : o.Encoded img) (W : o.WellFormed w img.length) (a : Arch) (ra : RelocArch)
    (hl : ∀ sec e, LocalAct (ra.act sec e) w) (pe : PrepEnv)
    (hres : ∀ x y, unversioned x = unversioned y → pe.resolve x = pe.resolve y)
    (hns : ∀ i, o.isRela i → ∀ r ∈ o.rels i, ∀ p s, o.syms[r.sym]? = some p → p.2.sym.shndx = s.shndx →
      p.2.sym.typ = s.typ → p.2.sym.bind = s.bind → ra.Simple r s)
    (kpta : BitVec 64) (jmpOffset elfOffset : Nat) (img' : List Byte) (t : Option JmpTable)
    (h : prepareElf a ra pe kpta jmpOffset elfOffset img = some (img', t)) :
    ∃ syms', kpatchResolve a pe.junk pe.resolve kpta jmpOffset elfOffset pe.load o.psecs (o.syms.map (·.2)) = some (syms', t) ∧
      (∀ (k : Nat) (s : Nat × PSym), o.syms[k + 1]? = some s → ∃ s', syms'[k + 1]? = some s' ∧
        s.2.sym.RunsAt (o.runAddr (kpta + BitVec.ofNat 64 elfOffset) pe.load) s') ∧
      syms'[0]? = o.syms[0]?.map (·.2.sym) ∧
      PreparedImg o ra w (kpta + BitVec.ofNat 64 elfOffset) pe.load img img' syms' := by
  unfold prepareElf at h
  cases hr : resolveElf a pe.junk pe.resolve kpta jmpOffset elfOffset pe.load img with
  | none => rw [hr] at h; simp at h
  | some q =>
    obtain ⟨img2, t2⟩ := q
    rw [hr] at h
    dsimp only at h
    cases hok : (relocateElf ra (kpta + BitVec.ofNat 64 jmpOffset) (elfSecIdx img2) (img2, t2)).2 with
    | false => rw [hok] at h; simp at h
    | true =>
      rw [hok] at h
      simp only [if_true, Option.some.injEq] at h
      obtain ⟨syms', g1, g2⟩ := resolveElf_obj E W a pe.junk pe.resolve hres kpta jmpOffset elfOffset pe.load img2 t2 hr
      obtain ⟨r1, r2⟩ := (relocate_obj E W ra _ t2 hl _ _ img2 syms' g2 (allSimple W hns g2)).2 hok
      rw [h] at r1 r2
      dsimp only at r1 r2
      subst r2
      exact ⟨syms', g1, g2.runs, g2.sym0, r1⟩

end

end Verif
