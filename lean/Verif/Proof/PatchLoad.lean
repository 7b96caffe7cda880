import Verif.Proof.PatchPrep
import Verif.Proof.Restore
import Verif.Proof.Symbols
import Verif.Props.JumpTable
/-
From the image and the jump table to the memory of the target (C79).
-/
namespace Verif
open Cpu

/-- The jump table is in the target after a successful application. -/
theorem objectApply_jmpTable {a : Arch} {e : ApplyEnv} {ids : List (List Byte)} {file : List Byte} {m : Mem}
    {v : ElfView} {kpta : Nat} {image : List Byte} {l : Layout}
    (A : ApplyAssumptions a e file m v kpta image l)
    (h : (objectApply a e ids file m).2.2 = true) (jo : Nat) (hjo : l.jmpOffset = some jo) :
    Holds (objectApply a e ids file m).1 (kpta + jo) (e.jmpTable.take (jmpTableSize a v.undef)) := by
  obtain ⟨v', kpta', image', l', hv, hr, hi, -, hl', heq⟩ := objectApply_ok a e ids file m h
  rw [A.view] at hv; rw [A.region] at hr
  simp only [Option.some.injEq] at hv hr
  replace hi := A.relocated _ hi
  subst hv; subst hr; subst image'
  rw [A.size, ← A.layout] at hl'
  subst l'
  rw [heq] at h ⊢
  obtain ⟨h1, h2, h3, h4, h5⟩ := installPatch_ok h
  rw [h4]
  have hpg : 0 < e.page := by have := A.page; omega
  have hin := layout_ineq a e.page v.undef image.length v.infoOff v.ninfo hpg
    (by rw [← A.layout]; exact A.mem32) (by have := A.table.fits; omega)
  rw [← A.layout] at hin
  obtain ⟨i1, i2, i3, i4, i5, i6, i7⟩ := hin
  have hjt : jo = 504 ∧ 504 + jmpTableSize a v.undef ≤ l.elfOffset := by
    rcases i7 with ⟨_, h⟩ | ⟨_, h, h'⟩
    · rw [h] at hjo; simp at hjo
    · rw [h] at hjo; simp at hjo; exact ⟨hjo.symm, h'⟩
  have hw : Holds (writeParts a e l v.undef (totalSizeOf (file.take hdrSize)) (storeLayout (file.take hdrSize) l)
      image kpta (mmapFixed m kpta l.totalMem)).1 (kpta + jo) (e.jmpTable.take (jmpTableSize a v.undef)) := by
    clear h2 h3 h4 h5
    unfold writeParts at h1 ⊢
    dsimp only at h1 ⊢
    split at h1
    · simp at h1
    rename_i hc1
    rw [if_neg hc1]
    split at h1
    · simp at h1
    rename_i hc2
    rw [if_neg hc2]
    rw [hjo] at h1 ⊢
    dsimp only at h1 ⊢
    exact (memWrite_ok _ _ _ _ h1).1
  generalize hmw : (writeParts a e l v.undef (totalSizeOf (file.take hdrSize)) (storeLayout (file.take hdrSize) l)
    image kpta (mmapFixed m kpta l.totalMem)).1 = mw at *
  have hlen : (parseInfos image v.infoOff v.ninfo).length = v.ninfo := parseInfos_length _ _ _
  have hav : EntriesAvoid a.hunkSize (parseInfos image v.infoOff v.ninfo) kpta l.totalMem :=
    entriesAvoid_of_unmapped A.funcs A.free
  have hcomm : v.ninfo * a.hunkSize = a.hunkSize * v.ninfo := Nat.mul_comm _ _
  have hsp := applyHunks_spec a e.hunk (kpta + l.userUndo) (parseInfos image v.infoOff v.ninfo) (e.safety mw).1 0
    (entriesDisjoint_of_funcs A.funcs)
    (fun i hi hn => (hav i hi hn).sub (by omega) (by rw [hlen]; omega)) A.table.noFlag
  simp only [Nat.zero_mul, Nat.add_zero, Nat.zero_add] at hsp
  obtain ⟨s1, s2, s3, s4⟩ := hsp
  rw [hlen] at s2
  intro k hk
  have hkb : k < jmpTableSize a v.undef := by
    simp only [List.length_take] at hk; omega
  have hx : InRange (kpta + jo + k) kpta l.totalMem := by simp only [InRange]; omega
  rw [s2 _ (fun i hi hn hxi => hav i hi hn _ ⟨hxi, hx⟩) (by simp only [InRange]; omega), A.wait mw _ (Or.inl hx)]
  exact hw k hk

/-- The 64-bit address space as the processor sees it. -/
def Mem.bv (m : Mem) : Memory := fun a => m a.toNat

theorem Holds.inMemory {m : Mem} {a : Nat} {bs : List Byte} (h : Holds m a bs) (hb : a + bs.length ≤ 2 ^ 64) :
    InMemory m.bv (BitVec.ofNat 64 a) bs := by
  intro i b hi
  have hl : i < bs.length := by
    by_contra hc
    rw [List.getElem?_eq_none (by omega)] at hi
    simp at hi
  unfold Mem.bv
  rw [← BitVec.ofNat_add, BitVec.toNat_ofNat, Nat.mod_eq_of_lt (by omega), h i hl]
  rw [List.getElem?_eq_getElem hl] at hi
  exact hi

theorem Holds.sub {m : Mem} {a : Nat} {bs cs : List Byte} (h : Holds m a bs) (off : Nat) (hc : bytesAt bs off cs.length = cs) :
    Holds m (a + off) cs := by
  intro k hk
  have e : cs[k]? = bs[off + k]? := by
    rw [← hc]
    unfold bytesAt
    rw [List.getElem?_take, if_pos hk, List.getElem?_drop]
  have hb : off + k < bs.length := by
    by_contra hn
    rw [List.getElem?_eq_getElem hk, List.getElem?_eq_none (by omega)] at e
    simp at e
  rw [List.getElem?_eq_getElem hk, List.getElem?_eq_getElem hb] at e
  rw [Nat.add_assoc, h (off + k) hb, Option.some.inj e]

theorem lit_info_nul : 0#8 ∉ lit ".kpatch.info" := by decide +kernel

theorem find_first (p : Nat → Bool) : ∀ (k a n : Nat), a ≤ n → n < a + k → p n = true → (∀ i, a ≤ i → i < n → p i = false) →
    (List.range' a k).find? p = some n
  | 0, a, n, _, _, _, _ => by omega
  | k + 1, a, n, h1, h2, h3, h4 => by
    rw [List.range'_succ, List.find?_cons]
    by_cases e : a = n
    · subst e; rw [h3]
    · rw [h4 a (by omega) (by omega)]
      exact find_first p k (a + 1) n (by omega) (by omega) h3 fun i hi hn => h4 i (by omega) hn

theorem secName_eq {o : ElfObj} {img : List Byte} {w : Rela Nat → Nat} (E : o.Encoded img) (W : o.WellFormed w img.length)
    {i : Nat} (h1 : 1 ≤ i) (h2 : i < o.secs.length) : elfSecName img i = o.secName i := by
  unfold elfSecName
  rw [E.num.2.2, E.shdr h2, E.shdr W.shstrtab.2.1]
  exact (E.secNames i h1 h2).cstr

theorem strcmp_info {o : ElfObj} {img : List Byte} (E : o.Encoded img)
    {i : Nat} (h1 : 1 ≤ i) (h2 : i < o.secs.length) :
    (strcmp (o.secName i) (lit ".kpatch.info") == 0) = decide (o.secName i = lit ".kpatch.info") := by
  rw [Bool.eq_iff_iff]
  simp only [beq_iff_eq, decide_eq_true_eq]
  constructor
  · exact strcmp_eq_zero _ _ (E.secNames i h1 h2).1 lit_info_nul
  · intro h; rw [h]; exact strcmp_self _

theorem elfLoadInfo_obj {o : ElfObj} {img : List Byte} {w : Rela Nat → Nat} (E : o.Encoded img) (W : o.WellFormed w img.length)
    {n : Nat} (hn : o.infoSec n) : elfLoadInfo img = some ((o.sec n).offset, (o.sec n).size / 48) := by
  unfold elfLoadInfo elfSecIdx
  obtain ⟨n1, n2, n3, n4⟩ := hn
  rw [E.num.2.1, find_first _ _ 1 n n1 (by omega)]
  · simp only [Option.map_some]
    rw [E.shdr n2]
  · rw [secName_eq E W n1 n2, strcmp_info E n1 n2]
    exact decide_eq_true n3
  · intro i h1 h2
    rw [secName_eq E W h1 (by omega), strcmp_info E h1 (by omega)]
    exact decide_eq_false (n4 i h1 h2)

/-- What is assumed about loading a patch file: after the header it holds a well-formed object whose sections
of records is section `n`, the libraries do not distinguish versions of a name, and the assumptions of
`objectApply` hold. -/
structure LoadCase (a : Arch) (ra : RelocArch) (pe : PrepEnv) (e : ApplyEnv) (file : List Byte) (m : Mem) (o : ElfObj)
    (w : Rela Nat → Nat) (n : Nat) (img : List Byte) (v : ElfView) (kpta : Nat) (image : List Byte) (l : Layout) : Prop where
  object : ∃ off, FieldAt file 152 4 off ∧ img = file.drop off
  encoded : o.Encoded img
  wellFormed : o.WellFormed w img.length
  info : o.infoSec n
  names : ∀ x y, unversioned x = unversioned y → pe.resolve x = pe.resolve y
  apply : ApplyAssumptions a (applyFileEnv a ra pe e file) file m v kpta image l
  addr : kpta + l.totalMem ≤ 2 ^ 64

structure LoadedImg (a : Arch) (ra : RelocArch) (pe : PrepEnv) (m' : Mem) (o : ElfObj) (w : Rela Nat → Nat) (n : Nat)
    (img image : List Byte) (base : Nat) (syms' : List Sym) : Prop where
  runs : ∀ (k : Nat) (s : Nat × PSym), o.syms[k + 1]? = some s → ∃ s', syms'[k + 1]? = some s' ∧
    s.2.sym.RunsAt (o.runAddr (BitVec.ofNat 64 base) pe.load) s'
  sym0 : syms'[0]? = o.syms[0]?.map (·.2.sym)
  prep : PreparedImg o ra w (BitVec.ofNat 64 base) pe.load img image syms'
  holds : Holds m' base image
  libs : ∀ (k : Nat) (s : Nat × PSym), o.syms[k + 1]? = some s → s.2.FromLibrary →
    (a = .riscv64 → pe.resolve s.2.name &&& ~~~1#64 = pe.resolve s.2.name) →
    ∃ s', syms'[k + 1]? = some s' ∧ s'.size = pe.resolve s.2.name ∧
      Reaches (archStep a m'.bv) (archScratch a) s'.value (pe.resolve s.2.name) ∧
      (a = .x86 ∨ a = .aarch64 → word64 m'.bv (s'.value + 8#64) = some (pe.resolve s.2.name))
  jumps : ∀ i ∈ parseInfos image (o.sec n).offset ((o.sec n).size / 48), i.isOld → ∃ code,
    a.hunkCode (BitVec.ofNat 64 i.daddr) (BitVec.ofNat 64 i.saddr) = some code ∧ Holds m' i.daddr code

theorem load_case {a : Arch} {ra : RelocArch} {pe : PrepEnv} {e : ApplyEnv} {ids : List (List Byte)} {file : List Byte} {m : Mem}
    {o : ElfObj} {w : Rela Nat → Nat} {n : Nat} {img : List Byte} {v : ElfView} {kpta : Nat} {image : List Byte} {l : Layout}
    (C : LoadCase a ra pe e file m o w n img v kpta image l)
    (hl : ∀ sec e, LocalAct (ra.act sec e) w)
    (hns : ∀ i, o.isRela i → ∀ r ∈ o.rels i, ∀ p s, o.syms[r.sym]? = some p → p.2.sym.shndx = s.shndx →
      p.2.sym.typ = s.typ → p.2.sym.bind = s.bind → ra.Simple r s)
    (h : (objectApplyFile a ra pe e ids file m).2.2 = true) :
    ∃ syms', LoadedImg a ra pe (objectApplyFile a ra pe e ids file m).1 o w n img image (kpta + l.elfOffset) syms' := by
  have A := C.apply
  have E := C.encoded
  have W := C.wellFormed
  unfold objectApplyFile at h ⊢
  obtain ⟨P, -, -⟩ := objectApply_in_place A h
  have J := fun jo hjo => objectApply_jmpTable A h jo hjo
  obtain ⟨v', kpta', image', l', hv, hr, hi, -, -, -⟩ := objectApply_ok a _ ids file m h
  have hi2 := A.relocated _ hi
  rw [A.view] at hv; rw [A.region] at hr
  simp only [Option.some.injEq] at hv hr
  subst hi2; subst hv; subst hr
  generalize hm' : (objectApply a (applyFileEnv a ra pe e file) ids file m).1 = m' at *
  clear hm' h
  obtain ⟨off, hoff, himg⟩ := C.object
  have hoff' : leVal ((file.drop offKpatchOffset).take 4) = off := hoff.ld
  have hview : fileView file = some v := A.view
  have hv2 : v.infoOff = (o.sec n).offset ∧ v.ninfo = (o.sec n).size / 48 ∧ v.undef = countUndefined (o.syms.map (·.2)) := by
    unfold fileView at hview
    dsimp only at hview
    rw [hoff', ← himg, elfLoadInfo_obj E W C.info] at hview
    simp only [Option.map_some, Option.some.injEq] at hview
    rw [← hview, countUndefined_eq E W]
    exact ⟨rfl, rfl, rfl⟩
  have hregion : e.region = some kpta := A.region
  have hlay : layout a e.page v.undef (totalSizeOf (file.take hdrSize)) v.infoOff v.ninfo = l := by
    rw [A.size, A.layout]; rfl
  have hprep : ∃ t, prepareElf a ra pe (BitVec.ofNat 64 kpta) (l.jmpOffset.getD 0) l.elfOffset img = some (image', t) ∧
      (applyFileEnv a ra pe e file).jmpTable = (t.map (·.bytes a)).getD [] := by
    unfold applyFileEnv at hi ⊢
    dsimp only at hi ⊢
    rw [hoff', ← himg, hview, hregion] at hi
    rw [hoff', ← himg, hview, hregion]
    dsimp only at hi ⊢
    rw [hlay] at hi ⊢
    cases hp : prepareElf a ra pe (BitVec.ofNat 64 kpta) (l.jmpOffset.getD 0) l.elfOffset img with
    | none => rw [hp] at hi; simp at hi
    | some q =>
      rw [hp] at hi
      simp only [Option.map_some, Option.some.injEq] at hi
      exact ⟨q.2, by rw [← hi], rfl⟩
  obtain ⟨t, hp1, hp2⟩ := hprep
  obtain ⟨syms', g1, g2, g3, g4⟩ := prepareElf_obj E W a ra hl pe C.names hns _ _ _ _ _ hp1
  rw [← BitVec.ofNat_add] at g2 g4
  have hpg : 0 < e.page := by have := A.page; exact Nat.lt_of_lt_of_le (by omega) this
  have hin := layout_ineq a e.page v.undef image'.length v.infoOff v.ninfo hpg
    (by have := A.mem32; rw [A.layout] at this; exact this) (by have := A.table.fits; omega)
  have hle : layout a e.page v.undef (504 + image'.length) v.infoOff v.ninfo = l := by rw [A.layout]; rfl
  rw [hle] at hin
  obtain ⟨i1, i2, i3, i4, i5, i6, i7⟩ := hin
  have haddr := C.addr
  refine ⟨syms', g2, g3, g4, P.image, ?_, ?_⟩
  · intro k s hk hs heven
    have hk' : (o.syms.map (·.2))[k + 1]? = some s.2 := by rw [List.getElem?_map, hk]; rfl
    obtain ⟨jt, joff, j1, j2, j3⟩ := C29_library_calls_partial a pe.junk pe.resolve _ _ _ _ _ _ _ _ g1 ⟨k, s.2, hk', hs⟩
    obtain ⟨-, -, -, x, x1, x2, x3, x4, x5⟩ := j3 k s.2 hk' hs
    have hun : v.undef ≠ 0 := by
      rw [hv2.2.2]
      have hm : s.2 ∈ (o.syms.map (·.2)).drop 1 := by
        apply List.mem_of_getElem? (i := k)
        rw [List.getElem?_drop, Nat.add_comm]; exact hk'
      have : 0 < ((o.syms.map (·.2)).drop 1).countP PSym.lib := List.countP_pos_iff.2 ⟨s.2, hm, s.2.lib_iff.2 hs⟩
      have := countUndefined_ge (o.syms.map (·.2))
      omega
    have hjo : l.jmpOffset = some 504 ∧ 504 + jmpTableSize a v.undef ≤ l.elfOffset := by
      rcases i7 with ⟨h, _⟩ | ⟨_, h, h'⟩
      · exact absurd h hun
      · exact ⟨h, h'⟩
    have hH := J 504 hjo.1
    subst j1
    rw [hp2] at hH
    simp only [Option.map_some, Option.getD_some] at hH
    rw [hv2.2.2, ← j2, List.take_length] at hH
    have hM := hH.inMemory (by rw [j2, ← hv2.2.2]; omega)
    rw [BitVec.ofNat_add] at hM
    rw [hjo.1] at x5
    exact ⟨x, x1, x2, x5 _ hM heven⟩
  · have := P.jumps
    rw [hv2.1, hv2.2.1] at this
    exact this

theorem parseInfos_get (image : List Byte) : ∀ (n off j : Nat), j < n →
    parseInfo ((image.drop (off + 48 * j)).take 48) ∈ parseInfos image off n
  | 0, _, _, h => by omega
  | n + 1, off, 0, _ => by simp [parseInfos]
  | n + 1, off, j + 1, h => by
    rw [parseInfos]
    apply List.mem_cons_of_mem
    have := parseInfos_get image n (off + 48) j (by omega)
    rw [show off + 48 * (j + 1) = off + 48 + 48 * j by omega]
    exact this

theorem or_shift_toNat {n : Nat} (x y : BitVec n) (k : Nat) (hx : x.toNat < 2 ^ k) (hy : y.toNat * 2 ^ k < 2 ^ n) :
    (x ||| y <<< k).toNat = x.toNat + 2 ^ k * y.toNat := by
  rw [BitVec.toNat_or, BitVec.toNat_shiftLeft, Nat.shiftLeft_eq, Nat.mod_eq_of_lt hy, Nat.mul_comm y.toNat,
    Nat.or_comm, ← Nat.two_pow_add_eq_or_of_lt hx, Nat.add_comm]

theorem fetch32_toNat (b0 b1 b2 b3 : Byte) : (fetch32 b0 b1 b2 b3).toNat = leVal [b0, b1, b2, b3] := by
  have h0 := b0.isLt
  have h1 := b1.isLt
  have h2 := b2.isLt
  have h3 := b3.isLt
  have e : ∀ b : Byte, (b.setWidth 32).toNat = b.toNat := by
    intro b; rw [BitVec.toNat_setWidth, Nat.mod_eq_of_lt (by have := b.isLt; omega)]
  have a1 := or_shift_toNat (b0.setWidth 32) (b1.setWidth 32) 8 (by rw [e]; omega) (by rw [e]; omega)
  have a2 := or_shift_toNat (b0.setWidth 32 ||| b1.setWidth 32 <<< 8) (b2.setWidth 32) 16
    (by rw [a1, e, e]; omega) (by rw [e]; omega)
  have a3 := or_shift_toNat (b0.setWidth 32 ||| b1.setWidth 32 <<< 8 ||| b2.setWidth 32 <<< 16) (b3.setWidth 32) 24
    (by rw [a2, a1, e, e, e]; omega) (by rw [e]; omega)
  unfold fetch32
  rw [a3, a2, a1]
  simp only [e, leVal]
  omega

theorem field64_leVal {bs : List Byte} {w : BitVec 64} (h : field64 bs = some w) : leVal bs = w.toNat := by
  match bs, h with
  | [b0, b1, b2, b3, b4, b5, b6, b7], h =>
    simp only [field64, Option.some.injEq] at h
    have e : ∀ x : BitVec 32, (x.setWidth 64).toNat = x.toNat := by
      intro b; rw [BitVec.toNat_setWidth, Nat.mod_eq_of_lt (by have := b.isLt; omega)]
    have l1 := (fetch32 b0 b1 b2 b3).isLt
    have l2 := (fetch32 b4 b5 b6 b7).isLt
    rw [← h, or_shift_toNat _ _ 32 (by rw [e]; omega) (by rw [e]; omega), e, e, fetch32_toNat, fetch32_toNat]
    simp only [leVal]
    omega

/-- The record of the table whose two addresses are given by two fields. -/
theorem record_of_fields {image : List Byte} {off n j : Nat} (hj : j < n) {b1 b2 : List Byte} {d s : BitVec 64}
    (h1 : bytesAt image (off + 48 * j) b1.length = b1) (h2 : bytesAt image (off + (48 * j + 8)) b2.length = b2)
    (l1 : b1.length = 8) (l2 : b2.length = 8) (f1 : field64 b1 = some d) (f2 : field64 b2 = some s) :
    ∃ i ∈ parseInfos image off n, i.daddr = d.toNat ∧ i.saddr = s.toNat := by
  refine ⟨_, parseInfos_get image n off j hj, ?_, ?_⟩
  · unfold parseInfo
    dsimp only
    rw [List.take_take, Nat.min_eq_left (by omega), ← field64_leVal f1, ← h1, l1]
    rfl
  · unfold parseInfo
    dsimp only
    rw [List.drop_take, List.drop_drop, List.take_take, Nat.min_eq_left (by omega), ← field64_leVal f2, ← h2, l2]
    rfl

end Verif
