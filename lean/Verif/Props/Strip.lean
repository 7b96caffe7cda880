import Verif.Model.Strip
import Verif.Proof.Hunk
import Verif.Spec.Memory
import Mathlib.Data.List.Nodup
import Mathlib.Data.List.Sublists
/-
C47 (functions too short for the jump are refused), C50 (relocation targets survive undoing the link) and
C51 (patch sections get the address of the original's section of the same name).
-/
namespace Verif

/-! ### C47 -/

/-- The length check of the stripper: it passes exactly the tables in which every record that patches an
existing function has at least 5 bytes of old code. -/
theorem C47_check (is : List Info) :
    checkInfoLen is = false ↔ ∀ i ∈ is, i.isNew = false → 5 ≤ i.dlen := by
  induction is with
  | nil => simp [checkInfoLen]
  | cons i is ih =>
    rw [checkInfoLen]
    cases hn : i.isNew with
    | true => simp [ih, hn]
    | false => simp [ih, hn]

/-- **C47** (partial: not riscv64).  If the stripper produced an output for a file whose `.kpatch.info`
holds the records `is`, then installing the jump of any of these records (whatever the kernel does with
the accesses, and wherever the undo area is) changes nothing outside the old function's code and the
record's own undo slot. -/
theorem C47_no_overrun_partial (a : Arch) (ha : a ≠ .riscv64) (secs : List ScnIn) (res : List ScnOut × BitVec 64)
    (hs : kpatchStrip secs = some res) (s : ScnIn) (hmem : s ∈ secs) (hname : s.name = lit ".kpatch.info")
    (i : Info) (hi : i ∈ s.infos) (f : HunkFault) (m : Mem) (undo n : Nat) (x : Addr)
    (hx : ¬ InRange x i.daddr i.dlen) (hu : ¬ InRange x (undo + n * a.hunkSize) a.hunkSize) :
    (applyHunk a f m undo n i).1 x = m x := by
  have hgo : ∀ (off : Option (BitVec 64)) (ss : List ScnIn) r, stripGo off ss = some r → s ∈ ss →
      checkInfoLen s.infos = false := by
    intro off ss
    induction ss generalizing off with
    | nil => simp
    | cons t ts ih =>
      intro r hr hm
      rw [stripGo] at hr
      cases ho : stripOne off t with
      | none => rw [ho] at hr; simp at hr
      | some p =>
        obtain ⟨o, off1⟩ := p
        rw [ho] at hr
        dsimp only at hr
        rcases List.mem_cons.1 hm with rfl | hm
        · unfold stripOne at ho
          dsimp only at ho
          have hneed : needSection s.name = true := by rw [hname]; decide +kernel
          rw [if_pos hneed, if_pos (by rw [hname]; simp)] at ho
          by_contra hc
          rw [if_pos (by simpa using hc)] at ho
          exact absurd ho (by simp)
        · cases h2 : stripGo off1 ts with
          | none => rw [h2] at hr; simp at hr
          | some q => exact ih off1 q h2 hm
  have hlen : checkInfoLen s.infos = false := by
    unfold kpatchStrip at hs
    cases h2 : stripGo none secs with
    | none => rw [h2] at hs; simp at hs
    | some q => exact hgo none secs q h2 hmem
  cases hn : i.isNew with
  | true => rw [(applyHunk_spec a f m undo n i).2.2.1 hn]
  | false =>
    have h5 := (C47_check _).1 hlen i hi hn
    apply (applyHunk_spec a f m undo n i).2.1 x _ hu
    have : a.hunkSize ≤ i.dlen := by
      cases a <;> simp_all [Arch.hunkSize] <;> omega
    unfold InRange at hx ⊢
    omega

/-- A section table with a two-record `.kpatch.info` that the stripper accepts. -/
def c47File (dlen : Nat) : List ScnIn :=
  [⟨lit ".text", 64, 16, [], []⟩,
   ⟨lit ".kpatch.info", 64, 1, List.replicate 96 0, [⟨0x1000, 0x2000, dlen, 40, false⟩, ⟨0, 0x2040, 0, 12, false⟩]⟩]

example : (kpatchStrip (c47File 5)).isSome = true := by decide +kernel
example : (kpatchStrip (c47File 4)) = none := by decide +kernel

/-- **C47 is violated on riscv64**: the jump of this architecture has 8 bytes, the stripper accepts
functions of 5 bytes (6 is a real case: one 4-byte and one 2-byte instruction), and installing the patch
overwrites the first bytes of whatever follows. -/
theorem C47_violated_riscv64 :
    ∃ (secs : List ScnIn) (res : List ScnOut × BitVec 64) (s : ScnIn) (i : Info) (f : HunkFault) (m : Mem)
      (undo n : Nat) (x : Addr), kpatchStrip secs = some res ∧ s ∈ secs ∧ s.name = lit ".kpatch.info" ∧
      i ∈ s.infos ∧ ¬ InRange x i.daddr i.dlen ∧
      ¬ InRange x (undo + n * Arch.riscv64.hunkSize) Arch.riscv64.hunkSize ∧
      (applyHunk .riscv64 f m undo n i).2.2 = true ∧ (applyHunk .riscv64 f m undo n i).1 x ≠ m x := by
  refine ⟨c47File 6, (kpatchStrip (c47File 6)).get (by decide +kernel), (c47File 6)[1],
    ⟨0x1000, 0x2000, 6, 40, false⟩, ⟨8, 8, 8⟩, (fun _ => some 0), 0x4000, 0, 0x1006, ?_, ?_, rfl, ?_,
    ?_, ?_, ?_, ?_⟩
  · simp
  · simp [c47File]
  · simp [c47File]
  · decide
  · decide
  · decide +kernel
  · decide +kernel

/-! ### C50 -/

/-- The absolute address that offset `off` in section `i` of a file stands for. -/
def LnkObj.place (o : LnkObj) (i : Nat) (off : BitVec 64) : BitVec 64 := o.addrOf i + off

theorem copyAddrs_get (orig : List LnkSec) (m : List (Nat × Nat)) (ps : List LnkSec) (k j : Nat) :
    (copyAddrs orig m ps k)[j]? = (ps[j]?).map fun p =>
      match (reverseMapping m (k + j)).bind (orig[·]?) with
      | some o => { p with addr := o.addr }
      | none => p := by
  induction ps generalizing k j with
  | nil => simp [copyAddrs]
  | cons p ps ih =>
    rw [copyAddrs]
    cases j with
    | zero => simp only [List.getElem?_cons_zero, Option.map_some, Nat.add_zero]; rfl
    | succ j => simp [ih, Nat.add_assoc, Nat.add_comm 1 j]

theorem copyAddrs_length (orig : List LnkSec) (m : List (Nat × Nat)) (ps : List LnkSec) (k : Nat) :
    (copyAddrs orig m ps k).length = ps.length := by
  induction ps generalizing k with
  | nil => rfl
  | cons p ps ih => simp [copyAddrs, ih]

theorem relOffset_spec (o : LnkObj) (s : LnkSec) :
    (relOffsetToRelative o s).name = s.name ∧ (relOffsetToRelative o s).typ = s.typ ∧
    (relOffsetToRelative o s).info = s.info ∧ (relOffsetToRelative o s).alloc = s.alloc ∧
    (relOffsetToRelative o s).addr = s.addr ∧
    (relOffsetToRelative o s).offs.length = s.offs.length ∧
    ∀ j : Nat, (relOffsetToRelative o s).offs[j]?.map (o.place s.info) = s.offs[j]? := by
  unfold relOffsetToRelative LnkObj.place
  split
  · rename_i h
    simp only [true_and]
    intro j
    cases h2 : s.offs[j]? with
    | none => rfl
    | some v => simp [h]
  · simp only [List.length_map, true_and]
    intro j
    rw [List.getElem?_map]
    cases h2 : s.offs[j]? with
    | none => rfl
    | some v =>
      simp only [Option.map_some, Option.some.injEq]
      rw [BitVec.add_comm, BitVec.sub_add_cancel]

theorem symToRelative_spec (o : LnkObj) (s s' : Sym) (h : symToRelative o s = some s') :
    s'.shndx = s.shndx ∧ s'.typ = s.typ ∧ s'.size = s.size ∧ s'.bind = s.bind ∧
    (if s.shndx = 0 ∨ s.shndx ≥ 0xff00 ∨ s.typ = .tls ∨ s.typ = .sect then s'.value = s.value
     else o.place s.shndx s'.value = s.value) := by
  unfold symToRelative at h
  split at h
  · rename_i hc
    cases h
    simp [hc]
  · rename_i hc
    rw [if_neg hc]
    split at h
    · contradiction
    · rename_i sec hsec
      unfold LnkObj.place LnkObj.addrOf
      rw [hsec]
      split at h
      · rename_i h0
        cases h
        simp [h0]
      · cases h
        refine ⟨rfl, rfl, rfl, rfl, ?_⟩
        simp only [Option.map_some, Option.getD_some]
        rw [BitVec.add_comm, BitVec.sub_add_cancel]

theorem symsToRelative_spec (o : LnkObj) (ss ss' : List Sym) (h : symsToRelative o ss = some ss') :
    ss'.length = ss.length ∧ ∀ (j : Nat) (s s' : Sym), ss[j]? = some s → ss'[j]? = some s' → symToRelative o s = some s' := by
  induction ss generalizing ss' with
  | nil => simp only [symsToRelative, Option.some.injEq] at h; subst h; simp
  | cons s ss ih =>
    rw [symsToRelative] at h
    cases h1 : symToRelative o s with
    | none => rw [h1] at h; simp at h
    | some t =>
      rw [h1] at h
      cases h2 : symsToRelative o ss with
      | none => rw [h2] at h; simp at h
      | some ts =>
        rw [h2] at h
        simp only [Option.map_some, Option.some.injEq] at h
        subst h
        obtain ⟨hl, hget⟩ := ih ts h2
        refine ⟨by simp [hl], ?_⟩
        intro j s1 s1' hj hj'
        cases j with
        | zero => simp at hj hj'; subst hj hj'; exact h1
        | succ j => exact hget j s1 s1' (by simpa using hj) (by simpa using hj')

/-- C50: a patch with relocations without addends is refused. -/
theorem C50_refuses_rel (orig patch : LnkObj) {s : LnkSec} (hs : s ∈ patch.secs) (h : s.typ = .rel) : undoLink orig patch = none := by
  unfold undoLink
  rw [if_pos]
  rw [List.any_eq_true]
  exact ⟨s, hs, by simp [h]⟩

/-- **C50**, relocations.  When undoing the link succeeds, every relocation section of the result has the
same name, target section and number of entries as before, and each entry's offset, read relative to the
target section of the linked file, is the absolute address the entry had. -/
theorem C50_relocations (orig patch out : LnkObj) (h : undoLink orig patch = some out)
    (i : Nat) (s : LnkSec) (hs : patch.secs[i]? = some s) (ht : s.typ = .rela) :
    ∃ s', out.secs[i]? = some s' ∧ s'.name = s.name ∧ s'.typ = .rela ∧ s'.info = s.info ∧
      s'.offs.length = s.offs.length ∧
      ∀ j : Nat, (s'.offs[j]?).map (patch.place s.info) = s.offs[j]? := by
  unfold undoLink at h
  split at h
  · contradiction
  · dsimp only at h
    split at h
    · contradiction
    · rename_i syms hsyms
      unfold copySectionsAddr at h
      rw [Option.map_map] at h
      obtain ⟨m, hm, rfl⟩ := Option.map_eq_some_iff.1 h
      simp only [Function.comp]
      rw [copyAddrs_get, List.getElem?_map, hs]
      simp only [Option.map_some, ht, if_true, Nat.zero_add]
      obtain ⟨h1, h2, h3, -, -, h4, h5⟩ := relOffset_spec patch s
      split
      · exact ⟨_, rfl, h1, by rw [← ht]; exact h2, h3, h4, h5⟩
      · exact ⟨_, rfl, h1, by rw [← ht]; exact h2, h3, h4, h5⟩

/-- **C50**, symbols.  When undoing the link succeeds, the symbols are the same in the same order, and the
value of every symbol defined in a section (not thread-local, not a section symbol), read relative to that
section of the linked file, is the address the symbol had; all other values are unchanged. -/
theorem C50_symbols (orig patch out : LnkObj) (h : undoLink orig patch = some out) :
    out.syms.length = patch.syms.length ∧
    ∀ (j : Nat) (s s' : Sym), patch.syms[j]? = some s → out.syms[j]? = some s' →
      s'.shndx = s.shndx ∧ s'.typ = s.typ ∧ s'.size = s.size ∧ s'.bind = s.bind ∧
      (if s.shndx = 0 ∨ s.shndx ≥ 0xff00 ∨ s.typ = .tls ∨ s.typ = .sect then s'.value = s.value
       else patch.place s.shndx s'.value = s.value) := by
  unfold undoLink at h
  split at h
  · contradiction
  · dsimp only at h
    split at h
    · contradiction
    · rename_i syms hsyms
      obtain ⟨secs', -, rfl⟩ := Option.map_eq_some_iff.1 h
      obtain ⟨hl, hg⟩ := symsToRelative_spec _ _ _ hsyms
      exact ⟨hl, fun j s s' hj hj' => symToRelative_spec patch s s' (hg j s s' hj hj')⟩

/-- A linked patch with one code section at `0x5000`, its relocations and two symbols. -/
def c50Patch : LnkObj :=
  ⟨[⟨lit "", false, 0, .other, 0, []⟩, ⟨lit ".kpatch.text", true, 0x5000, .other, 0, []⟩,
    ⟨lit ".rela.kpatch.text", false, 0, .rela, 1, [0x5004, 0x5010]⟩, ⟨lit ".text", true, 0x1000, .other, 0, []⟩,
    ⟨lit ".shstrtab", false, 0, .other, 0, []⟩],
   [⟨0, 0, 0, .notype, .loc⟩, ⟨0x5008, 4, 1, .func, .glob⟩, ⟨0x5000, 0, 1, .sect, .loc⟩]⟩

/-- The original binary for it. -/
def c50Orig : LnkObj :=
  ⟨[⟨lit "", false, 0, .other, 0, []⟩, ⟨lit ".text", true, 0x2000, .other, 0, []⟩], []⟩

example : undoLink c50Orig c50Patch = some
  ⟨[⟨lit "", false, 0, .other, 0, []⟩, ⟨lit ".kpatch.text", true, 0x5000, .other, 0, []⟩,
    ⟨lit ".rela.kpatch.text", false, 0, .rela, 1, [0x4, 0x10]⟩, ⟨lit ".text", true, 0x2000, .other, 0, []⟩,
    ⟨lit ".shstrtab", false, 0, .other, 0, []⟩],
   [⟨0, 0, 0, .notype, .loc⟩, ⟨0x8, 4, 1, .func, .glob⟩, ⟨0x5000, 0, 1, .sect, .loc⟩]⟩ := by
  decide +kernel

/-! ### C51 -/

theorem scanName_found (name : CStr) (ps : List LnkSec) (ip k : Nat)
    (h : scanName name ps ip = some (some k)) :
    ip ≤ k ∧ ∃ p, ps[k - ip]? = some p ∧ p.name = name := by
  induction ps generalizing ip with
  | nil => simp [scanName] at h
  | cons p ps ih =>
    rw [scanName] at h
    split at h
    · rename_i hn
      simp only [Option.some.injEq] at h
      subst h
      exact ⟨Nat.le_refl _, p, by simp, hn⟩
    · split at h
      · simp at h
      · obtain ⟨h1, q, h2, h3⟩ := ih (ip + 1) h
        refine ⟨by omega, q, ?_, h3⟩
        have : k - ip = (k - (ip + 1)) + 1 := by omega
        rw [this]
        simpa using h2

/-- Every pair the code maps consists of an allocated section of the original and a section of the patch of
the same name. -/
theorem mapSecs_sound (patch os : List LnkSec) (io ip : Nat) (hip : 1 ≤ ip) (m : List (Nat × Nat))
    (h : mapSecs patch os io ip = some m) :
    ∀ e ∈ m, io ≤ e.1 ∧ 1 ≤ e.2 ∧ ∃ o p, os[e.1 - io]? = some o ∧ o.alloc = true ∧ patch[e.2]? = some p ∧
      p.name = o.name := by
  fun_induction mapSecs patch os io ip generalizing m with
  | case1 => simp at h; subst h; simp
  | case2 o os io ip hal ih =>
    intro e he
    obtain ⟨h1, h1', o', p, h2, h3⟩ := ih hip m h e he
    refine ⟨by omega, h1', o', p, ?_, h3⟩
    rw [show e.1 - io = (e.1 - (io + 1)) + 1 by omega]; simpa using h2
  | case3 => simp at h
  | case4 o os io ip hal hscan ih =>
    intro e he
    obtain ⟨h1, h1', o', p, h2, h3⟩ := ih (Nat.le_refl 1) m h e he
    refine ⟨by omega, h1', o', p, ?_, h3⟩
    rw [show e.1 - io = (e.1 - (io + 2)) + 1 + 1 by omega]
    simp only [List.getElem?_drop] at h2
    rw [List.getElem?_cons_succ, ← h2, Nat.add_comm]
  | case5 o os io ip hal k hscan ih =>
    obtain ⟨m', hm', rfl⟩ := Option.map_eq_some_iff.1 h
    obtain ⟨hk, p, hp, hpn⟩ := scanName_found _ _ _ _ hscan
    intro e he
    rcases List.mem_cons.1 he with rfl | he
    · refine ⟨Nat.le_refl _, by omega, o, p, by simp, by simpa using hal, ?_, hpn⟩
      rw [List.getElem?_drop, show ip + (k - ip) = k by omega] at hp
      exact hp
    · obtain ⟨h1, h1', o', q, h2, h3⟩ := ih (by omega) m' hm' e he
      refine ⟨by omega, h1', o', q, ?_, h3⟩
      rw [show e.1 - io = (e.1 - (io + 1)) + 1 by omega]; simpa using h2

theorem reverseMapping_mem (m : List (Nat × Nat)) (k i : Nat) (h : reverseMapping m k = some i) :
    (i, k) ∈ m := by
  unfold reverseMapping at h
  obtain ⟨e, he, rfl⟩ := Option.map_eq_some_iff.1 h
  have h1 := List.find?_some he
  have h2 := List.mem_of_find?_eq_some he
  simp only [beq_iff_eq] at h1
  simp only [List.mem_reverse] at h2
  subst h1
  exact h2

theorem reverseMapping_none (m : List (Nat × Nat)) (k : Nat) (h : reverseMapping m k = none) (i : Nat) :
    (i, k) ∉ m := by
  intro hc
  unfold reverseMapping at h
  rw [Option.map_eq_none_iff, List.find?_eq_none] at h
  exact h (i, k) (by simpa using hc) (by simp)

/-- **C51**, soundness: whatever the two files are, a section of the patch either keeps its header or gets
the address of an allocated section of the original that has the same name. -/
theorem C51_same_name (orig patch out : List LnkSec) (h : copySectionsAddr orig patch = some out) :
    out.length = patch.length ∧
    ∀ (k : Nat) (p : LnkSec), patch[k]? = some p → out[k]? = some p ∨
      ∃ (i : Nat) (o : LnkSec), orig[i]? = some o ∧ o.alloc = true ∧ o.name = p.name ∧
        out[k]? = some { p with addr := o.addr } := by
  unfold copySectionsAddr at h
  obtain ⟨m, hm, rfl⟩ := Option.map_eq_some_iff.1 h
  refine ⟨copyAddrs_length .., ?_⟩
  intro k p hp
  rw [copyAddrs_get, hp]
  simp only [Option.map_some, Nat.zero_add]
  cases hr : reverseMapping m k with
  | none => left; simp
  | some i =>
    obtain ⟨h1, -, o, q, h2, h3, h4, h5⟩ := mapSecs_sound patch _ 1 1 (Nat.le_refl 1) m hm _ (reverseMapping_mem m k i hr)
    dsimp only at h1 h2 h4
    rw [hp] at h4
    cases h4
    have ho : orig[i]? = some o := by
      rw [List.getElem?_drop, show 1 + (i - 1) = i by omega] at h2
      exact h2
    right
    exact ⟨i, o, ho, h3, h5.symm, by simp [ho]⟩

theorem scanName_sublist (name : CStr) (rest : List CStr) (ps : List LnkSec) (ip : Nat)
    (h : (name :: rest).Sublist (ps.map LnkSec.name)) :
    ∃ k, scanName name ps ip = some (some k) ∧ ip ≤ k ∧ rest.Sublist ((ps.drop (k + 1 - ip)).map LnkSec.name) := by
  induction ps generalizing ip with
  | nil => simp at h
  | cons p ps ih =>
    rw [scanName]
    by_cases hn : p.name = name
    · refine ⟨ip, by rw [if_pos hn], Nat.le_refl _, ?_⟩
      rw [show ip + 1 - ip = 1 by omega]
      simp only [List.map_cons] at h
      rw [hn] at h
      simpa using List.cons_sublist_cons.1 h
    · rw [if_neg hn]
      have h' : (name :: rest).Sublist (ps.map LnkSec.name) := by
        simp only [List.map_cons] at h
        cases h with
        | cons _ h => exact h
        | cons_cons => exact absurd rfl hn
      have hne : ps.isEmpty = false := by
        cases ps with
        | nil => simp at h'
        | cons => rfl
      rw [hne]
      obtain ⟨k, h1, h2, h3⟩ := ih (ip + 1) h'
      refine ⟨k, by simpa using h1, by omega, ?_⟩
      rw [show k + 1 - ip = (k + 1 - (ip + 1)) + 1 by omega]
      simpa using h3

theorem mapSecs_complete (patch os : List LnkSec) (io ip : Nat)
    (h : ((os.filter LnkSec.alloc).map LnkSec.name).Sublist ((patch.drop ip).map LnkSec.name)) :
    ∃ m, mapSecs patch os io ip = some m ∧
      ∀ (j : Nat) (o : LnkSec), os[j]? = some o → o.alloc = true → ∃ k, (io + j, k) ∈ m := by
  induction os generalizing io ip with
  | nil => exact ⟨[], by simp [mapSecs], by simp⟩
  | cons o os ih =>
    rw [mapSecs]
    cases hal : o.alloc with
    | false =>
      rw [List.filter_cons_of_neg (by simp [hal])] at h
      obtain ⟨m, h1, h2⟩ := ih (io + 1) ip h
      refine ⟨m, by simpa using h1, ?_⟩
      intro j o' hj hal'
      cases j with
      | zero => simp at hj; subst hj; rw [hal] at hal'; contradiction
      | succ j =>
        obtain ⟨k, hk⟩ := h2 j o' (by simpa using hj) hal'
        exact ⟨k, by rw [show io + (j + 1) = io + 1 + j by omega]; exact hk⟩
    | true =>
      rw [List.filter_cons_of_pos (by simp [hal]), List.map_cons] at h
      obtain ⟨k, h1, h2, h3⟩ := scanName_sublist _ _ _ ip h
      rw [List.drop_drop, show ip + (k + 1 - ip) = k + 1 by omega] at h3
      obtain ⟨m, h4, h5⟩ := ih (io + 1) (k + 1) h3
      refine ⟨(io, k) :: m, by simp [h1, h4], ?_⟩
      intro j o' hj hal'
      cases j with
      | zero => exact ⟨k, by simp⟩
      | succ j =>
        obtain ⟨k', hk'⟩ := h5 j o' (by simpa using hj) hal'
        exact ⟨k', by rw [show io + (j + 1) = io + 1 + j by omega]; exact List.mem_cons_of_mem _ hk'⟩

/-- **C51** (partial: only when every allocated section of the original is present in the patch, in the
same order, and no two sections of the patch have the same name).  Then every section of the patch whose
name is that of an allocated section of the original gets the original's address. -/
theorem C51_address_partial (orig patch : List LnkSec)
    (hsub : (((orig.drop 1).filter LnkSec.alloc).map LnkSec.name).Sublist ((patch.drop 1).map LnkSec.name))
    (hnd : ((patch.drop 1).map LnkSec.name).Nodup) :
    ∃ out, copySectionsAddr orig patch = some out ∧
      ∀ (i k : Nat) (o p : LnkSec), 1 ≤ i → 1 ≤ k → orig[i]? = some o → o.alloc = true →
        patch[k]? = some p → p.name = o.name → out[k]? = some { p with addr := o.addr } := by
  obtain ⟨m, hm, hall⟩ := mapSecs_complete patch (orig.drop 1) 1 1 hsub
  refine ⟨copyAddrs orig m patch 0, by rw [copySectionsAddr, mapPatchToOrig, hm]; rfl, ?_⟩
  intro i k o p hi hk ho hal hp hn
  have hsound := mapSecs_sound patch _ 1 1 (Nat.le_refl 1) m hm
  -- names of the patch are distinct: equal names, equal numbers
  have huniq : ∀ k k' p p', 1 ≤ k → 1 ≤ k' → patch[k]? = some p → patch[k']? = some p' → p.name = p'.name →
      k = k' := by
    intro k k' p p' h1 h1' hp hp' hnn
    have e1 : ((patch.drop 1).map LnkSec.name)[k - 1]? = some p.name := by
      rw [List.getElem?_map, List.getElem?_drop, show 1 + (k - 1) = k by omega, hp]; rfl
    have e2 : ((patch.drop 1).map LnkSec.name)[k' - 1]? = some p.name := by
      rw [List.getElem?_map, List.getElem?_drop, show 1 + (k' - 1) = k' by omega, hp', hnn]; rfl
    obtain ⟨l1, g1⟩ := List.getElem?_eq_some_iff.1 e1
    obtain ⟨l2, g2⟩ := List.getElem?_eq_some_iff.1 e2
    have := (List.Nodup.getElem_inj_iff hnd (hi := l1) (hj := l2)).1 (by rw [g1, g2])
    omega
  -- allocated sections of the original have distinct names
  have hnd' : (((orig.drop 1).filter LnkSec.alloc).map LnkSec.name).Nodup := hnd.sublist hsub
  have huniqo : ∀ i i' o o', 1 ≤ i → 1 ≤ i' → orig[i]? = some o → orig[i']? = some o' → o.alloc = true →
      o'.alloc = true → o.name = o'.name → o = o' := by
    intro i i' o o' h1 h1' hi hi' ha ha' hnn
    have m1 : o ∈ (orig.drop 1).filter LnkSec.alloc := by
      refine List.mem_filter.2 ⟨List.mem_of_getElem? (i := i - 1) ?_, by simpa using ha⟩
      rw [List.getElem?_drop, show 1 + (i - 1) = i by omega, hi]
    have m2 : o' ∈ (orig.drop 1).filter LnkSec.alloc := by
      refine List.mem_filter.2 ⟨List.mem_of_getElem? (i := i' - 1) ?_, by simpa using ha'⟩
      rw [List.getElem?_drop, show 1 + (i' - 1) = i' by omega, hi']
    exact List.inj_on_of_nodup_map hnd' m1 m2 hnn
  obtain ⟨k0, hk0⟩ := hall (i - 1) o (by rw [List.getElem?_drop, show 1 + (i - 1) = i by omega, ho]) hal
  rw [show 1 + (i - 1) = i by omega] at hk0
  obtain ⟨g1, g2, o', p', h2, h3, h4, h5⟩ := hsound _ hk0
  dsimp only at g1 g2 h2 h4
  have ho' : orig[i]? = some o' := by
    rw [List.getElem?_drop, show 1 + (i - 1) = i by omega] at h2; exact h2
  rw [ho] at ho'
  cases ho'
  have hkk : k0 = k := huniq k0 k p' p g2 hk h4 hp (by rw [h5, hn])
  subst hkk
  rw [copyAddrs_get, hp]
  simp only [Option.map_some, Nat.zero_add]
  cases hr : reverseMapping m k0 with
  | none => exact absurd hk0 (reverseMapping_none m k0 hr i)
  | some i1 =>
    obtain ⟨f1, -, o1, p1, f2, f3, f4, f5⟩ := hsound _ (reverseMapping_mem m k0 i1 hr)
    dsimp only at f1 f2 f4
    have ho1 : orig[i1]? = some o1 := by
      rw [List.getElem?_drop, show 1 + (i1 - 1) = i1 by omega] at f2; exact f2
    rw [hp] at f4
    cases f4
    have : o1 = o := huniqo i1 i o1 o f1 hi ho1 ho f3 hal (by rw [← f5, hn])
    subst this
    simp [ho1]

private def sec (n : String) (al : Bool) (ad : BitVec 64) : LnkSec := ⟨lit n, al, ad, .other, 0, []⟩

example : let orig := [sec "" false 0, sec ".text" true 0x400, sec ".data" true 0x900, sec ".comment" false 0]
    let patch := [sec "" false 0, sec ".kpatch.text" true 0x5000, sec ".text" true 0x1000, sec ".data" true 0x2000]
    (((orig.drop 1).filter LnkSec.alloc).map LnkSec.name).Sublist ((patch.drop 1).map LnkSec.name) ∧
    ((patch.drop 1).map LnkSec.name).Nodup ∧
    (copySectionsAddr orig patch) =
      some [sec "" false 0, sec ".kpatch.text" true 0x5000, sec ".text" true 0x400, sec ".data" true 0x900] := by
  refine ⟨?_, ?_, ?_⟩ <;> decide +kernel

/-- **C51 is violated**: when an allocated section of the original is not in the patch, the section after
it is skipped as well although the patch has it (`iorig` is incremented twice). -/
theorem C51_violated_skip :
    ∃ (orig patch out : List LnkSec) (i k : Nat) (o p q : LnkSec), copySectionsAddr orig patch = some out ∧
      orig[i]? = some o ∧ o.alloc = true ∧ patch[k]? = some p ∧ p.alloc = true ∧ p.name = o.name ∧
      out[k]? = some q ∧ q.addr ≠ o.addr := by
  refine ⟨[sec "" false 0, sec ".interp" true 0x318, sec ".text" true 0x400],
    [sec "" false 0, sec ".text" true 0x1000, sec ".shstrtab" false 0],
    [sec "" false 0, sec ".text" true 0x1000, sec ".shstrtab" false 0], 2, 1,
    sec ".text" true 0x400, sec ".text" true 0x1000, sec ".text" true 0x1000,
    ?_, rfl, rfl, rfl, rfl, rfl, rfl, ?_⟩
  · decide +kernel
  · decide

/-- **C51 is violated**: sections in another order in the patch are not found, because the scan goes on
from the last match. -/
theorem C51_violated_order :
    ∃ (orig patch out : List LnkSec) (i k : Nat) (o p q : LnkSec), copySectionsAddr orig patch = some out ∧
      orig[i]? = some o ∧ o.alloc = true ∧ patch[k]? = some p ∧ p.alloc = true ∧ p.name = o.name ∧
      out[k]? = some q ∧ q.addr ≠ o.addr := by
  refine ⟨[sec "" false 0, sec ".rodata" true 0x318, sec ".text" true 0x400],
    [sec "" false 0, sec ".text" true 0x1000, sec ".rodata" true 0x2000, sec ".shstrtab" false 0],
    [sec "" false 0, sec ".text" true 0x1000, sec ".rodata" true 0x318, sec ".shstrtab" false 0], 2, 1,
    sec ".text" true 0x400, sec ".text" true 0x1000, sec ".text" true 0x1000,
    ?_, rfl, rfl, rfl, rfl, rfl, rfl, ?_⟩
  · decide +kernel
  · decide

end Verif
