import Verif.Spec.Segments
import Verif.Proof.Bits
/-
C32: link-time addresses map to the right run-time addresses.
-/
namespace Verif

/-- What the C library promises of `qsort`. -/
def PhdrSorted (sorted table : List Phdr) : Prop :=
  sorted.Perm table ∧ sorted.Pairwise fun a b => phdrCompare a b ≤ 0

theorem relroFrom_plain : ∀ (l : List Phdr) (prev : Phdr), (∀ c ∈ l, c.typ ≠ .relro) → relroFrom prev l = some (prev :: l)
  | [], _, _ => rfl
  | c :: l, prev, h => by
    unfold relroFrom
    rw [if_neg (h c (by simp)), relroFrom_plain l c (fun x hx => h x (by simp [hx]))]
    rfl

/-- The `PT_LOAD` shortened by the `PT_GNU_RELRO` at its start, and the latter without write access. -/
def cutLoad (p r : Phdr) : Phdr :=
  { p with
    vaddr := r.vaddr + r.memsz, memsz := p.memsz - r.memsz
    offset := p.offset + r.filesz, filesz := p.filesz - r.filesz }
def readOnly (r : Phdr) : Phdr := { r with flags := r.flags - (if r.flags / 2 % 2 = 1 then 2 else 0) }

theorem relroFrom_split : ∀ (A : List Phdr) (prev p r : Phdr) (B : List Phdr), (∀ c ∈ A, c.typ ≠ .relro) →
    p.typ ≠ .relro → r.typ = .relro → (∀ c ∈ B, c.typ ≠ .relro) → p.vaddr = r.vaddr →
    relroFrom prev (A ++ p :: r :: B) = some (prev :: (A ++ cutLoad p r :: readOnly r :: B))
  | [], prev, p, r, B, _, hp, hr, hB, hv => by
    rw [List.nil_append]
    unfold relroFrom
    rw [if_neg hp]
    unfold relroFrom
    rw [if_pos hr, if_pos hv, relroFrom_plain B _ hB]
    rfl
  | a :: A, prev, p, r, B, hA, hp, hr, hB, hv => by
    rw [List.cons_append]
    unfold relroFrom
    rw [if_neg (hA a (by simp)), relroFrom_split A a p r B (fun x hx => hA x (by simp [hx])) hp hr hB hv]
    rfl

theorem relroAdjust_split (A : List Phdr) (p r : Phdr) (B : List Phdr) (hA : ∀ c ∈ A, c.typ ≠ .relro)
    (hp : p.typ ≠ .relro) (hr : r.typ = .relro) (hB : ∀ c ∈ B, c.typ ≠ .relro) (hv : p.vaddr = r.vaddr) :
    relroAdjust (A ++ p :: r :: B) = some (A ++ cutLoad p r :: readOnly r :: B) := by
  cases A with
  | nil =>
    rw [List.nil_append]
    unfold relroAdjust
    dsimp only
    rw [if_neg hp]
    unfold relroFrom
    rw [if_pos hr, if_pos hv, relroFrom_plain B _ hB]
    rfl
  | cons a A =>
    rw [List.cons_append]
    unfold relroAdjust
    dsimp only
    rw [if_neg (hA a (by simp)), relroFrom_split A a p r B (fun x hx => hA x (by simp [hx])) hp hr hB hv]
    rfl

/-- The adjusted list for a well-formed table: exactly the segments. -/
theorem relroAdjust_segments (phdrs L : List Phdr) (hwf : WellFormedPhdrs phdrs)
    (hL : PhdrSorted L (phdrs.filter fun p => decide (p.typ ≠ .other))) :
    ∃ M, relroAdjust L = some M ∧
      (∀ q ∈ M, Segment phdrs q.vaddr q.memsz q.filesz q.flags) ∧
      (∀ st m f fl, Segment phdrs st m f fl → ∃ q ∈ M, q.vaddr = st ∧ q.memsz = m ∧ q.filesz = f ∧ q.flags = fl) := by
  have hmem : ∀ q, q ∈ L ↔ q ∈ phdrs ∧ q.typ ≠ .other := by
    intro q; rw [hL.1.mem_iff, List.mem_filter]; simp
  have hdist : L.Pairwise fun a b => a.typ = .load → b.typ = .load → a.vaddr ≠ b.vaddr := by
    rw [hL.1.pairwise_iff (fun h h1 h2 => (h h2 h1).symm)]
    exact hwf.distinct.sublist List.filter_sublist
  have hcnt : L.countP (fun p => decide (p.typ = .relro)) ≤ 1 := by
    rw [hL.1.countP_eq]
    exact Nat.le_trans (List.Sublist.countP_le List.filter_sublist) hwf.one_relro
  by_cases hrel : ∃ r ∈ phdrs, r.typ = .relro
  · obtain ⟨r, hr, hrt⟩ := hrel
    obtain ⟨p0, hp0, hp0t, hp0v, hp0m⟩ := hwf.relro_inside r hr hrt
    have hrL : r ∈ L := (hmem r).2 ⟨hr, by rw [hrt]; decide⟩
    have hpL : p0 ∈ L := (hmem p0).2 ⟨hp0, by rw [hp0t]; decide⟩
    obtain ⟨A, B, hAB⟩ := List.append_of_mem hrL
    have hnoA : ∀ c ∈ A, c.typ ≠ .relro := by
      intro c hc h
      have : 0 < A.countP (fun p => decide (p.typ = .relro)) := List.countP_pos_iff.2 ⟨c, hc, by simp [h]⟩
      rw [hAB, List.countP_append, List.countP_cons] at hcnt
      simp only [hrt, decide_true, if_true] at hcnt
      omega
    have hnoB : ∀ c ∈ B, c.typ ≠ .relro := by
      intro c hc h
      have : 0 < B.countP (fun p => decide (p.typ = .relro)) := List.countP_pos_iff.2 ⟨c, hc, by simp [h]⟩
      rw [hAB, List.countP_append, List.countP_cons] at hcnt
      simp only [hrt, decide_true, if_true] at hcnt
      omega
    have hs := hL.2
    rw [hAB] at hs
    have hs' := List.pairwise_append.1 hs
    have hpA : p0 ∈ A := by
      rw [hAB, List.mem_append, List.mem_cons] at hpL
      rcases hpL with h | rfl | h
      · exact h
      · rw [hp0t] at hrt; simp at hrt
      · exfalso
        have := (List.pairwise_cons.1 hs'.2.1).1 p0 h
        unfold phdrCompare at this
        rw [hp0v] at this
        simp only [BitVec.lt_irrefl, if_false, if_pos hp0m] at this
        omega
    -- the predecessor of r
    obtain ⟨A', q, hq⟩ : ∃ A' q, A = A' ++ [q] := by
      rcases List.eq_nil_or_concat A with h | ⟨A', q, h⟩
      · rw [h] at hpA; simp at hpA
      · exact ⟨A', q, by simpa using h⟩
    have hqp : q = p0 := by
      rw [hq, List.mem_append, List.mem_singleton] at hpA
      rcases hpA with h | h
      · exfalso
        have hqr : phdrCompare q r ≤ 0 := hs'.2.2 q (by rw [hq]; simp) r (by simp)
        have hpq : phdrCompare p0 q ≤ 0 := by
          have := hs'.1
          rw [hq] at this
          exact (List.pairwise_append.1 this).2.2 p0 h q (by simp)
        have hqv : q.vaddr = p0.vaddr := by
          have h1 : ¬ r.vaddr < q.vaddr := by
            intro hc
            unfold phdrCompare at hqr
            rw [if_neg (by intro h; exact absurd (BitVec.lt_asymm h hc) (by simp)), if_pos hc] at hqr
            omega
          have h2 : ¬ q.vaddr < p0.vaddr := by
            intro hc
            unfold phdrCompare at hpq
            rw [if_neg (by intro h; exact absurd (BitVec.lt_asymm h hc) (by simp)), if_pos hc] at hpq
            omega
          rw [← hp0v] at h1
          exact BitVec.le_antisymm (BitVec.not_lt.1 h1) (BitVec.not_lt.1 h2)
        have hqL : q ∈ L := by rw [hAB, hq]; simp
        have hqt : q.typ = .load := by
          have h1 := ((hmem q).1 hqL).2
          have h2 := hnoA q (by rw [hq]; simp)
          cases hty : q.typ <;> simp_all
        have hd := hdist
        rw [hAB, hq, List.append_assoc] at hd
        exact (List.pairwise_append.1 hd).2.2 p0 h q (by simp) hp0t hqt hqv.symm
      · exact h.symm
    subst hqp
    have hLeq : L = A' ++ q :: r :: B := by rw [hAB, hq]; simp
    refine ⟨A' ++ cutLoad q r :: readOnly r :: B, ?_, ?_, ?_⟩
    · rw [hLeq]
      exact relroAdjust_split A' q r B (fun c hc => hnoA c (by rw [hq]; simp [hc]))
        (by rw [hp0t]; decide) hrt hnoB hp0v
    · -- every entry is a segment
      have hother : ∀ c, c ∈ A' ∨ c ∈ B → Segment phdrs c.vaddr c.memsz c.filesz c.flags := by
        intro c hc
        have hcL : c ∈ L := by rw [hLeq]; simp; tauto
        have hcp := (hmem c).1 hcL
        have hcnr : c.typ ≠ .relro := by
          rcases hc with h | h
          · exact hnoA c (by rw [hq]; simp [h])
          · exact hnoB c h
        have hct : c.typ = .load := by cases hty : c.typ <;> simp_all
        have hcv : c.vaddr ≠ q.vaddr := by
          have hd := hdist
          rw [hLeq] at hd
          have hd' := List.pairwise_append.1 hd
          rcases hc with h | h
          · exact hd'.2.2 c h q (by simp) hct hp0t
          · exact ((List.pairwise_cons.1 hd'.2.1).1 c (by simp [h]) hp0t hct).symm
        refine Segment.load c hcp.1 hct ?_
        intro r' hr' hrt' hv'
        have hr'L : r' ∈ L := (hmem r').2 ⟨hr', by rw [hrt']; decide⟩
        have : r' = r := by
          rw [hAB, List.mem_append, List.mem_cons] at hr'L
          rcases hr'L with h | h | h
          · exact absurd hrt' (hnoA _ h)
          · exact h
          · exact absurd hrt' (hnoB _ h)
        subst this
        exact hcv (by rw [← hv', hp0v])
      intro c hc
      rw [List.mem_append, List.mem_cons, List.mem_cons] at hc
      rcases hc with h | rfl | rfl | h
      · exact hother c (Or.inl h)
      · have := Segment.rest q r hp0 hp0t hr hrt hp0v.symm
        rw [hp0v] at this
        exact this
      · exact Segment.relro r hr hrt
      · exact hother c (Or.inr h)
    · intro st m f fl hseg
      have huniq : ∀ r' ∈ phdrs, r'.typ = .relro → r' = r := by
        intro r' hr' hrt'
        have hr'L : r' ∈ L := (hmem r').2 ⟨hr', by rw [hrt']; decide⟩
        rw [hAB, List.mem_append, List.mem_cons] at hr'L
        rcases hr'L with h | h | h
        · exact absurd hrt' (hnoA _ h)
        · exact h
        · exact absurd hrt' (hnoB _ h)
      have huniqp : ∀ p ∈ phdrs, p.typ = .load → p.vaddr = q.vaddr → p = q := by
        intro p hp hpt hpv
        have hpL' : p ∈ L := (hmem p).2 ⟨hp, by rw [hpt]; decide⟩
        have hd := hdist
        rw [hLeq] at hd
        have hd' := List.pairwise_append.1 hd
        rw [hLeq, List.mem_append, List.mem_cons, List.mem_cons] at hpL'
        rcases hpL' with h | h | h | h
        · exact absurd hpv (hd'.2.2 p h q (by simp) hpt hp0t)
        · exact h
        · subst h; rw [hpt] at hrt; simp at hrt
        · exact absurd hpv.symm ((List.pairwise_cons.1 hd'.2.1).1 p (by simp [h]) hp0t hpt)
      cases hseg with
      | load p hp hpt hno =>
        have hpL' : p ∈ L := (hmem p).2 ⟨hp, by rw [hpt]; decide⟩
        refine ⟨p, ?_, rfl, rfl, rfl, rfl⟩
        rw [hLeq, List.mem_append, List.mem_cons, List.mem_cons] at hpL'
        rcases hpL' with h | h | h | h
        · simp [h]
        · subst h; exact absurd hp0v.symm (hno r hr hrt)
        · subst h; rw [hpt] at hrt; simp at hrt
        · simp [h]
      | relro r' hr' hrt' =>
        have := huniq r' hr' hrt'
        subst this
        exact ⟨readOnly r', by simp, rfl, rfl, rfl, rfl⟩
      | rest p r' hp hpt hr' hrt' hv =>
        have := huniq r' hr' hrt'
        subst this
        have := huniqp p hp hpt (by rw [hp0v, hv])
        subst this
        exact ⟨cutLoad p r', by simp, by rw [hp0v]; rfl, rfl, rfl, rfl⟩
  · -- no RELRO
    have hno : ∀ c ∈ L, c.typ ≠ .relro := by
      intro c hc h; exact hrel ⟨c, ((hmem c).1 hc).1, h⟩
    have hadj : relroAdjust L = some L := by
      cases L with
      | nil => rfl
      | cons p ps =>
        unfold relroAdjust
        dsimp only
        rw [if_neg (hno p (by simp)), relroFrom_plain ps p (fun c hc => hno c (by simp [hc]))]
    refine ⟨L, hadj, ?_, ?_⟩
    · intro q hq
      have h1 := (hmem q).1 hq
      have h2 := hno q hq
      refine Segment.load q h1.1 (by cases hty : q.typ <;> simp_all) ?_
      intro r hr hrt; exact absurd ⟨r, hr, hrt⟩ hrel
    · intro st m f fl hseg
      cases hseg with
      | load p hp hpt _ => exact ⟨p, (hmem p).2 ⟨hp, by rw [hpt]; decide⟩, rfl, rfl, rfl, rfl⟩
      | relro r hr hrt => exact absurd ⟨r, hr, hrt⟩ hrel
      | rest p r _ _ hr hrt _ => exact absurd ⟨r, hr, hrt⟩ hrel

theorem foldl_lowest (l : List Phdr) : ∀ (m : BitVec 64), (m ≠ BitVec.allOnes 64 ∨ ∃ p ∈ l, p.typ = .load ∧ p.vaddr ≠ BitVec.allOnes 64) →
    l.foldl (fun m p => if p.typ = .load then (if p.vaddr < m then p.vaddr else m) else m) m ≠ BitVec.allOnes 64 := by
  induction l with
  | nil => intro m h; simpa using h
  | cons x l ih =>
    intro m h
    rw [List.foldl_cons]
    apply ih
    have hlt : ∀ a : BitVec 64, a ≠ BitVec.allOnes 64 → a < BitVec.allOnes 64 := by
      intro a ha
      have h1 := a.isLt
      have : a.toNat ≠ 2 ^ 64 - 1 := fun hc => ha (by apply BitVec.eq_of_toNat_eq; rw [hc]; rfl)
      rw [BitVec.lt_def]
      have e : (BitVec.allOnes 64).toNat = 2 ^ 64 - 1 := rfl
      omega
    by_cases hx : x.typ = .load
    · rw [if_pos hx]
      rcases h with h | ⟨p, hp, hpt, hpv⟩
      · left
        split
        · rename_i hlt'
          intro hc; rw [hc] at hlt'
          exact absurd (BitVec.lt_asymm hlt' (hlt m h)) (by simp)
        · exact h
      · rcases List.mem_cons.1 hp with rfl | hp
        · left
          by_cases hm : m = BitVec.allOnes 64
          · rw [hm, if_pos (hlt _ hpv)]; exact hpv
          · split
            · exact hpv
            · exact hm
        · right; exact ⟨p, hp, hpt, hpv⟩
    · rw [if_neg hx]
      rcases h with h | ⟨p, hp, hpt, hpv⟩
      · left; exact h
      · rcases List.mem_cons.1 hp with rfl | hp
        · exact absurd hpt hx
        · right; exact ⟨p, hp, hpt, hpv⟩

theorem matchVmas_translate (page load : BitVec 64) (M : List Phdr) :
    ∀ (vmas : List OVma), (∀ o ∈ vmas, o.inelfStart = 0#64 ∧ o.inelfEnd = 0#64) →
      ∀ o ∈ (matchVmas page load M vmas).1, (o.inelfStart = 0#64 ∧ o.inelfEnd = 0#64) ∨
        ∃ p ∈ M, ∃ o0 ∈ vmas, o0.prot ≠ 0 ∧ matchPhdr page load p o0 = true ∧ o = assignPhdr load p o0
  | [], _, o, ho => by simp [matchVmas] at ho
  | v :: vs, hf, o, ho => by
    unfold matchVmas at ho
    have ih := matchVmas_translate page load M vs (fun x hx => hf x (by simp [hx]))
    by_cases hp : v.prot = 0
    · rw [if_pos hp] at ho
      rcases List.mem_cons.1 ho with rfl | ho
      · left; exact hf o (by simp)
      · rcases ih o ho with h | ⟨p, hp, o0, ho0, h⟩
        · left; exact h
        · right; exact ⟨p, hp, o0, by simp [ho0], h⟩
    · rw [if_neg hp] at ho
      cases hfind : M.find? fun p => matchPhdr page load p v with
      | none =>
        rw [hfind] at ho
        left; exact hf o ho
      | some p =>
        rw [hfind] at ho
        rcases List.mem_cons.1 ho with rfl | ho
        · right
          exact ⟨p, List.mem_of_find?_eq_some hfind, v, by simp, hp, List.find?_some (p := fun p => matchPhdr page load p v) hfind, rfl⟩
        · rcases ih o ho with h | ⟨p, hp, o0, ho0, h⟩
          · left; exact h
          · right; exact ⟨p, hp, o0, by simp [ho0], h⟩

theorem vaddr2addr_cases (vmas : List OVma) (v : BitVec 64) :
    vaddr2addr vmas v = 0#64 ∨ ∃ o ∈ vmas, o.inelfStart ≤ v ∧ v < o.inelfEnd ∧
      vaddr2addr vmas v = v - o.inelfStart + o.inmemStart := by
  unfold vaddr2addr
  by_cases hv : v = 0#64
  · left; rw [if_pos hv]
  rw [if_neg hv]
  cases h : vmas.find? fun o => decide (o.inelfStart ≤ v) && decide (v < o.inelfEnd) with
  | none => left; rfl
  | some o =>
    right
    have := List.find?_some h
    simp only [Bool.and_eq_true, decide_eq_true_eq] at this
    exact ⟨o, List.mem_of_find?_eq_some h, this.1, this.2, rfl⟩

/-- C32: for every program header table, every list of freshly read mappings and every address, the
translation gives the address plus the load offset, or reports the address as unresolved (0) – whether
or not the headers could be matched. -/
theorem C32_translation (qsort : List Phdr → List Phdr) (page : BitVec 64) (phdrs : List Phdr)
    (vmaStart oldLoad : BitVec 64) (vmas : List OVma)
    (hf : ∀ o ∈ vmas, o.inelfStart = 0#64 ∧ o.inelfEnd = 0#64) (v : BitVec 64) :
    let r := parseProgramHeader qsort page phdrs vmaStart oldLoad vmas
    vaddr2addr r.vmas v = 0#64 ∨ vaddr2addr r.vmas v = v + r.load := by
  have hempty : ∀ (l : List OVma), (∀ o ∈ l, o.inelfStart = 0#64 ∧ o.inelfEnd = 0#64) → vaddr2addr l v = 0#64 := by
    intro l hl
    rcases vaddr2addr_cases l v with h | ⟨o, ho, h1, h2, _⟩
    · exact h
    · rw [(hl o ho).2] at h2
      exact absurd h2 (BitVec.not_lt.2 (by rw [BitVec.le_def]; exact Nat.zero_le _))
  unfold parseProgramHeader
  by_cases h0 : lowestLoad phdrs = BitVec.allOnes 64
  · rw [if_pos h0]; left; exact hempty _ hf
  rw [if_neg h0]
  dsimp only
  generalize vmaStart - pageDown page (lowestLoad phdrs) = load
  cases hadj : relroAdjust (qsort (phdrs.filter fun p => decide (p.typ ≠ .other))) with
  | none => left; exact hempty _ hf
  | some M =>
    dsimp only
    rcases vaddr2addr_cases (matchVmas page load M vmas).1 v with h | ⟨o, ho, h1, h2, h3⟩
    · left; exact h
    · rcases matchVmas_translate page load M vmas hf o ho with h | ⟨p, _, o0, _, _, _, rfl⟩
      · rw [h.2] at h2
        exact absurd h2 (BitVec.not_lt.2 (by rw [BitVec.le_def]; exact Nat.zero_le _))
      · right
        rw [h3]
        simp only [assignPhdr]
        rw [BitVec.add_comm load p.vaddr, ← BitVec.add_assoc, BitVec.sub_add_cancel]

theorem parse_wf (qsort : List Phdr → List Phdr) (page : BitVec 64) (phdrs : List Phdr)
    (vmaStart oldLoad : BitVec 64) (vmas : List OVma) (hwf : WellFormedPhdrs phdrs)
    (hq : PhdrSorted (qsort (phdrs.filter fun p => decide (p.typ ≠ .other))) (phdrs.filter fun p => decide (p.typ ≠ .other))) :
    ∃ M, (∀ q ∈ M, Segment phdrs q.vaddr q.memsz q.filesz q.flags) ∧
      (∀ st m f fl, Segment phdrs st m f fl → ∃ q ∈ M, q.vaddr = st ∧ q.memsz = m ∧ q.filesz = f ∧ q.flags = fl) ∧
      let r := parseProgramHeader qsort page phdrs vmaStart oldLoad vmas
      r.vmas = (matchVmas page r.load M vmas).1 ∧ r.rv = if (matchVmas page r.load M vmas).2 then 0 else -1 := by
  obtain ⟨M, h1, h2, h3⟩ := relroAdjust_segments phdrs _ hwf hq
  refine ⟨M, h2, h3, ?_⟩
  have h0 : lowestLoad phdrs ≠ BitVec.allOnes 64 := foldl_lowest phdrs _ (Or.inr hwf.some_load)
  unfold parseProgramHeader
  rw [if_neg h0]
  dsimp only
  rw [h1]
  exact ⟨rfl, rfl⟩

/-- C32: an address is resolved only if it lies in a segment of the object that one of its mappings
shows. -/
theorem C32_resolved_is_mapped (qsort : List Phdr → List Phdr) (page : BitVec 64) (phdrs : List Phdr)
    (vmaStart oldLoad : BitVec 64) (vmas : List OVma) (hwf : WellFormedPhdrs phdrs)
    (hq : PhdrSorted (qsort (phdrs.filter fun p => decide (p.typ ≠ .other))) (phdrs.filter fun p => decide (p.typ ≠ .other)))
    (hf : ∀ o ∈ vmas, o.inelfStart = 0#64 ∧ o.inelfEnd = 0#64) (v : BitVec 64) :
    let r := parseProgramHeader qsort page phdrs vmaStart oldLoad vmas
    vaddr2addr r.vmas v ≠ 0#64 →
      ∃ start memsz filesz flags, Segment phdrs start memsz filesz flags ∧ start ≤ v ∧ v < start + memsz ∧
        ∃ o ∈ vmas, o.prot ≠ 0 ∧ Maps page r.load o start filesz flags := by
  obtain ⟨M, h2, _, h4, _⟩ := parse_wf qsort page phdrs vmaStart oldLoad vmas hwf hq
  intro r hne
  rw [h4] at hne
  rcases vaddr2addr_cases (matchVmas page r.load M vmas).1 v with h | ⟨o, ho, h1, h5, h3⟩
  · exact absurd h hne
  · rcases matchVmas_translate page r.load M vmas hf o ho with h | ⟨p, hp, o0, ho0, hprot, hm, rfl⟩
    · rw [h.2] at h5
      exact absurd h5 (BitVec.not_lt.2 (by rw [BitVec.le_def]; exact Nat.zero_le _))
    · refine ⟨p.vaddr, p.memsz, p.filesz, p.flags, h2 p hp, h1, h5, o0, ho0, hprot, ?_⟩
      unfold matchPhdr at hm
      simp only [Bool.and_eq_true, decide_eq_true_eq] at hm
      exact ⟨hm.1.1.symm, hm.1.2.symm, hm.2.symm⟩

theorem matchVmas_all (page load : BitVec 64) (M : List Phdr) :
    ∀ (vmas : List OVma), (matchVmas page load M vmas).2 = true →
      ∀ o ∈ vmas, o.prot ≠ 0 → ∃ p ∈ M, (M.find? fun p => matchPhdr page load p o) = some p ∧
        matchPhdr page load p o = true ∧ assignPhdr load p o ∈ (matchVmas page load M vmas).1
  | [], _, o, ho, _ => by simp at ho
  | v :: vs, hok, o, ho, hprot => by
    unfold matchVmas at hok ⊢
    by_cases hp : v.prot = 0
    · rw [if_pos hp] at hok ⊢
      rcases List.mem_cons.1 ho with rfl | ho
      · exact absurd hp hprot
      · obtain ⟨p, h1, h2, h3, h4⟩ := matchVmas_all page load M vs hok o ho hprot
        exact ⟨p, h1, h2, h3, by simp [h4]⟩
    · rw [if_neg hp] at hok ⊢
      cases hfind : M.find? fun p => matchPhdr page load p v with
      | none => rw [hfind] at hok; simp at hok
      | some p =>
        rw [hfind] at hok
        rcases List.mem_cons.1 ho with rfl | ho
        · exact ⟨p, List.mem_of_find?_eq_some hfind, hfind, List.find?_some (p := fun p => matchPhdr page load p o) hfind, by simp⟩
        · obtain ⟨p', h1, h2, h3, h4⟩ := matchVmas_all page load M vs hok o ho hprot
          exact ⟨p', h1, h2, h3, by simp [h4]⟩

/-- C32, partial: for a well-formed program header table, success means that every accessible mapping
of the object was matched to a segment.  For other tables see `C32_violated_error_is_success`. -/
theorem C32_success_means_matched_partial (qsort : List Phdr → List Phdr) (page : BitVec 64) (phdrs : List Phdr)
    (vmaStart oldLoad : BitVec 64) (vmas : List OVma) (hwf : WellFormedPhdrs phdrs)
    (hq : PhdrSorted (qsort (phdrs.filter fun p => decide (p.typ ≠ .other))) (phdrs.filter fun p => decide (p.typ ≠ .other)))
    (hok : (parseProgramHeader qsort page phdrs vmaStart oldLoad vmas).rv = 0) :
    ∀ o ∈ vmas, o.prot ≠ 0 → ∃ start memsz filesz flags, Segment phdrs start memsz filesz flags ∧
      Maps page (parseProgramHeader qsort page phdrs vmaStart oldLoad vmas).load o start filesz flags := by
  obtain ⟨M, h2, _, _, h5⟩ := parse_wf qsort page phdrs vmaStart oldLoad vmas hwf hq
  intro o ho hprot
  rw [h5] at hok
  have hm : (matchVmas page (parseProgramHeader qsort page phdrs vmaStart oldLoad vmas).load M vmas).2 = true := by
    by_contra hc; rw [if_neg hc] at hok; omega
  obtain ⟨p, hp, _, hmt, _⟩ := matchVmas_all page _ M vmas hm o ho hprot
  unfold matchPhdr at hmt
  simp only [Bool.and_eq_true, decide_eq_true_eq] at hmt
  exact ⟨p.vaddr, p.memsz, p.filesz, p.flags, h2 p hp, hmt.1.1.symm, hmt.1.2.symm, hmt.2.symm⟩

/-- C32, partial (same restriction): after success every address inside a segment that a mapping of
the object shows is resolved, provided that no other segment has the same pages and permissions. -/
theorem C32_mapped_is_resolved_partial (qsort : List Phdr → List Phdr) (page : BitVec 64) (phdrs : List Phdr)
    (vmaStart oldLoad : BitVec 64) (vmas : List OVma) (hwf : WellFormedPhdrs phdrs)
    (hq : PhdrSorted (qsort (phdrs.filter fun p => decide (p.typ ≠ .other))) (phdrs.filter fun p => decide (p.typ ≠ .other)))
    (hf : ∀ o ∈ vmas, o.inelfStart = 0#64 ∧ o.inelfEnd = 0#64)
    (hok : (parseProgramHeader qsort page phdrs vmaStart oldLoad vmas).rv = 0)
    (o : OVma) (ho : o ∈ vmas) (hprot : o.prot ≠ 0) (start memsz filesz : BitVec 64) (flags : Nat)
    (hseg : Segment phdrs start memsz filesz flags)
    (hmap : Maps page (parseProgramHeader qsort page phdrs vmaStart oldLoad vmas).load o start filesz flags)
    (honly : ∀ st m f fl, Segment phdrs st m f fl →
      Maps page (parseProgramHeader qsort page phdrs vmaStart oldLoad vmas).load o st f fl → st = start ∧ m = memsz)
    (v : BitVec 64) (hv0 : v ≠ 0#64) (hv1 : start ≤ v) (hv2 : v < start + memsz) :
    vaddr2addr (parseProgramHeader qsort page phdrs vmaStart oldLoad vmas).vmas v =
      v + (parseProgramHeader qsort page phdrs vmaStart oldLoad vmas).load := by
  obtain ⟨M, h2, _, h4, h5⟩ := parse_wf qsort page phdrs vmaStart oldLoad vmas hwf hq
  rw [h5] at hok
  generalize (parseProgramHeader qsort page phdrs vmaStart oldLoad vmas) = r at *
  have hm : (matchVmas page r.load M vmas).2 = true := by
    by_contra hc; rw [if_neg hc] at hok; omega
  obtain ⟨p, hp, _, hmt, hin⟩ := matchVmas_all page _ M vmas hm o ho hprot
  have hpm := hmt
  unfold matchPhdr at hpm
  simp only [Bool.and_eq_true, decide_eq_true_eq] at hpm
  obtain ⟨e1, e2⟩ := honly _ _ _ _ (h2 p hp) ⟨hpm.1.1.symm, hpm.1.2.symm, hpm.2.symm⟩
  rw [h4]
  unfold vaddr2addr
  rw [if_neg hv0]
  cases hfind : (matchVmas page r.load M vmas).1.find? fun o => decide (o.inelfStart ≤ v) && decide (v < o.inelfEnd) with
  | none =>
    exfalso
    have := List.find?_eq_none.1 hfind _ hin
    simp only [assignPhdr, e1, e2, hv1, hv2, decide_true, Bool.and_self, not_true] at this
  | some x =>
    dsimp only
    have hx := List.find?_some hfind
    simp only [Bool.and_eq_true, decide_eq_true_eq] at hx
    rcases matchVmas_translate page r.load M vmas hf x (List.mem_of_find?_eq_some hfind) with h | ⟨p', _, o0, _, _, _, rfl⟩
    · rw [h.2] at hx
      exact absurd hx.2 (BitVec.not_lt.2 (by rw [BitVec.le_def]; exact Nat.zero_le _))
    · simp only [assignPhdr]
      rw [BitVec.add_comm r.load p'.vaddr, ← BitVec.add_assoc, BitVec.sub_add_cancel]

/-! Non-vacuity: text, data with RELRO and bss. -/
namespace ExPhdr
def text : Phdr := ⟨.load, 0#64, 0x900#64, 0#64, 0x900#64, 5⟩
def data : Phdr := ⟨.load, 0x2000#64, 0x3000#64, 0x2000#64, 0x1800#64, 6⟩
def relro : Phdr := ⟨.relro, 0x2000#64, 0x1000#64, 0x2000#64, 0x1000#64, 4⟩
def dyn : Phdr := ⟨.other, 0x2100#64, 0x100#64, 0x2100#64, 0x100#64, 6⟩
def phdrs : List Phdr := [text, data, dyn, relro]
def vmas : List OVma :=
  [⟨0#64, 0#64, 0x7f0000000000#64, 0x7f0000001000#64, 5⟩, ⟨0#64, 0#64, 0x7f0000001000#64, 0x7f0000002000#64, 0⟩,
   ⟨0#64, 0#64, 0x7f0000002000#64, 0x7f0000003000#64, 1⟩, ⟨0#64, 0#64, 0x7f0000003000#64, 0x7f0000004000#64, 3⟩]
def qsort : List Phdr → List Phdr := fun _ => [text, data, relro]
theorem wf : WellFormedPhdrs phdrs where
  some_load := ⟨text, by decide, rfl, by decide⟩
  distinct := by simp [phdrs, text, data, dyn, relro]
  one_relro := by decide
  relro_inside := by
    intro r hr hrt
    simp only [phdrs, List.mem_cons, List.not_mem_nil, or_false] at hr
    rcases hr with rfl | rfl | rfl | rfl <;> first | exact absurd hrt (by decide) | skip
    exact ⟨data, by decide, rfl, rfl, by decide⟩
example : PhdrSorted (qsort (phdrs.filter fun p => decide (p.typ ≠ .other))) (phdrs.filter fun p => decide (p.typ ≠ .other)) :=
  ⟨by decide, by simp [qsort, phdrCompare, text, data, relro]⟩
example : (parseProgramHeader qsort 0x1000#64 phdrs 0x7f0000000000#64 0#64 vmas).rv = 0 ∧
    (parseProgramHeader qsort 0x1000#64 phdrs 0x7f0000000000#64 0#64 vmas).load = 0x7f0000000000#64 ∧
    vaddr2addr (parseProgramHeader qsort 0x1000#64 phdrs 0x7f0000000000#64 0#64 vmas).vmas 0x4800#64 = 0x7f0000004800#64 ∧
    vaddr2addr (parseProgramHeader qsort 0x1000#64 phdrs 0x7f0000000000#64 0#64 vmas).vmas 0x1800#64 = 0#64 := by decide
end ExPhdr

/-- C32 is violated for malformed tables: the error exits return success, with no mapping matched. -/
theorem C32_violated_error_is_success :
    ∃ (phdrs : List Phdr) (vmas : List OVma) (qsort : List Phdr → List Phdr),
      PhdrSorted (qsort (phdrs.filter fun p => decide (p.typ ≠ .other))) (phdrs.filter fun p => decide (p.typ ≠ .other)) ∧
      (parseProgramHeader qsort 0x1000#64 phdrs 0x7f0000000000#64 0#64 vmas).rv = 0 ∧
      (∃ o ∈ vmas, o.prot ≠ 0) ∧ (parseProgramHeader qsort 0x1000#64 phdrs 0x7f0000000000#64 0#64 vmas).vmas = vmas ∧
      ∀ v, vaddr2addr (parseProgramHeader qsort 0x1000#64 phdrs 0x7f0000000000#64 0#64 vmas).vmas v = 0#64 := by
  refine ⟨[ExPhdr.text, { ExPhdr.relro with vaddr := 0x100#64 }], ExPhdr.vmas, id, ⟨List.Perm.refl _, ?_⟩, by decide,
    ⟨_, List.mem_cons_self .., by decide⟩, by decide, ?_⟩
  · decide
  · intro v
    rcases vaddr2addr_cases (parseProgramHeader id 0x1000#64 [ExPhdr.text, { ExPhdr.relro with vaddr := 0x100#64 }]
      0x7f0000000000#64 0#64 ExPhdr.vmas).vmas v with h | ⟨o, ho, h1, h2, _⟩
    · exact h
    · have e : (parseProgramHeader id 0x1000#64 [ExPhdr.text, { ExPhdr.relro with vaddr := 0x100#64 }]
        0x7f0000000000#64 0#64 ExPhdr.vmas).vmas = ExPhdr.vmas := by decide
      rw [e] at ho
      have : o.inelfEnd = 0#64 := by
        simp only [ExPhdr.vmas, List.mem_cons, List.not_mem_nil, or_false] at ho
        rcases ho with rfl | rfl | rfl | rfl <;> rfl
      rw [this] at h2
      exact absurd h2 (BitVec.not_lt.2 (by rw [BitVec.le_def]; exact Nat.zero_le _))

end Verif
