import Verif.Proof.Records
import Verif.Model.Target
/-
From the description of a patch file to the assumptions of `load_case`.
-/
namespace Verif
open Cpu

/-- What is assumed when the patch file is applied to one object. -/
structure PatchCase (a : Arch) (w : Rela Nat → Nat) (abs : Nat) (pe : PrepEnv) (e : ApplyEnv) (file : List Byte) (m : Mem)
    (o : ElfObj) (n : Nat) (img : List Byte) (fns : List PatchFn) (kpta : Nat) : Prop where
  patch : PatchFileIs w abs file o n img fns
  names : ∀ x y, unversioned x = unversioned y → pe.resolve x = pe.resolve y
  page : 48 ≤ e.page
  region : e.region = some kpta
  pos : 0 < kpta
  mem32 : patchMemSize a e.page file < 2 ^ 32
  free : Unmapped m kpta (patchMemSize a e.page file)
  addr : kpta + patchMemSize a e.page file ≤ 2 ^ 64
  funcs : Replaceable a m pe.load fns
  wait : ∀ m' x, InRange x kpta (patchMemSize a e.page file) ∨ (∃ f ∈ fns, f.oldRange pe.load x) → (e.safety m').1 x = m' x

/-- The relocations of the type with number `abs` store the address of the symbol plus the addend. -/
def StoresAddress (ra : RelocArch) (abs : Nat) : Prop :=
  ∀ sec e (r : Rela Nat) s d bs, r.typ = abs → s.isUndef = false → s.typ ≠ .tls → ra.act sec e r s d = .write bs →
    bs.length = 8 ∧ field64 bs = some (s.value + r.addend)

theorem fileView_of_patch {w : Rela Nat → Nat} {abs : Nat} {file : List Byte} {o : ElfObj} {n : Nat} {img : List Byte} {fns : List PatchFn}
    (F : PatchFileIs w abs file o n img fns) :
    ∃ v, fileView file = some v ∧ v.infoOff = (o.sec n).offset ∧ v.ninfo = (o.sec n).size / 48 ∧
      v.undef = elfCountUndefined img ∧ img = file.drop (leVal ((file.drop offKpatchOffset).take 4)) := by
  obtain ⟨off, hoff, himg⟩ := F.object
  have hoff' : leVal ((file.drop offKpatchOffset).take 4) = off := hoff.ld
  refine ⟨⟨(o.sec n).offset, (o.sec n).size / 48, elfCountUndefined img⟩, ?_, rfl, rfl, rfl, by rw [hoff', himg]⟩
  unfold fileView
  dsimp only
  rw [hoff', ← himg, elfLoadInfo_obj F.encoded F.wellFormed F.info]
  rfl

/-- The case of a patch whose object could be prepared. -/
theorem case_of_image {a : Arch} {ra : RelocArch} {w : Rela Nat → Nat} {abs : Nat} {pe : PrepEnv} {e : ApplyEnv}
    {file : List Byte} {m : Mem}
    {o : ElfObj} {n : Nat} {img : List Byte} {fns : List PatchFn} {kpta : Nat} {image : List Byte}
    (C : PatchCase a w abs pe e file m o n img fns kpta)
    (hl : ∀ sec e, LocalAct (ra.act sec e) w)
    (hns : ∀ i, o.isRela i → ∀ r ∈ o.rels i, ∀ p s, o.syms[r.sym]? = some p → p.2.sym.shndx = s.shndx →
      p.2.sym.typ = s.typ → p.2.sym.bind = s.bind → ra.Simple r s)
    (hst : StoresAddress ra abs)
    (hi : (applyFileEnv a ra pe e file).image = some image) :
    ∃ v l, LoadCase a ra pe e file m o w n img v kpta image l ∧ l.totalMem = patchMemSize a e.page file ∧
      image.length = img.length ∧
      parseInfos image v.infoOff v.ninfo = fns.map (PatchFn.info (BitVec.ofNat 64 (kpta + l.elfOffset)) pe.load) := by
  have F := C.patch
  have E := F.encoded
  have W := F.wellFormed
  obtain ⟨v, hview, hv2a, hv2b, -, himg0⟩ := fileView_of_patch F
  have hv2 : v.infoOff = (o.sec n).offset ∧ v.ninfo = (o.sec n).size / 48 := ⟨hv2a, hv2b⟩
  obtain ⟨l, hlay⟩ : ∃ l, l = layout a e.page v.undef (totalSizeOf (file.take hdrSize)) v.infoOff v.ninfo := ⟨_, rfl⟩
  obtain ⟨off, hoff, himg⟩ := F.object
  have hoff' : leVal ((file.drop offKpatchOffset).take 4) = off := hoff.ld
  have htot : totalSizeOf (file.take hdrSize) = 504 + img.length := by
    rw [← F.total.ld]
    unfold totalSizeOf ldField
    rw [List.drop_take, List.take_take, Nat.min_eq_left (by simp [hdrSize, offTotalSize])]
    rfl
  have hmem : l.totalMem = patchMemSize a e.page file := by
    unfold patchMemSize
    rw [hview]
    dsimp only
    rw [← hlay]
  have hprep : ∃ t, prepareElf a ra pe (BitVec.ofNat 64 kpta) (l.jmpOffset.getD 0) l.elfOffset img = some (image, t) := by
    unfold applyFileEnv at hi
    dsimp only at hi
    rw [hoff', ← himg, hview, C.region] at hi
    dsimp only at hi
    rw [← hlay] at hi
    cases hp : prepareElf a ra pe (BitVec.ofNat 64 kpta) (l.jmpOffset.getD 0) l.elfOffset img with
    | none => rw [hp] at hi; simp at hi
    | some q =>
      rw [hp] at hi
      simp only [Option.map_some, Option.some.injEq] at hi
      exact ⟨q.2, by rw [← hi]⟩
  obtain ⟨t, hp1⟩ := hprep
  obtain ⟨syms, g1, g2, g3, g4⟩ := prepareElf_obj E W a ra hl pe C.names hns _ _ _ _ _ hp1
  rw [← BitVec.ofNat_add] at g2 g4
  have hlen := g4.len
  obtain ⟨r1, r2, r3⟩ := records_parse (abs := abs) W g4 g2 ⟨F.info.1, F.info.2.1⟩ (by
    intro i hi r hr ht hu htl
    obtain ⟨e', bs, b1, b2⟩ := g4.field i hi r hr
    obtain ⟨c1, c2⟩ := hst _ e' r _ _ bs ht hu htl b1
    exact ⟨bs, c1, b2, c2⟩) F.replaces
  have hpar : parseInfos image v.infoOff v.ninfo = fns.map (PatchFn.info (BitVec.ofNat 64 (kpta + l.elfOffset)) pe.load) := by
    rw [hv2.1, hv2.2, r1, r2]
  have hfit : (o.sec n).offset + (48 * fns.length + 24) ≤ img.length := by
    have := (W.fits n ⟨F.info.1, F.info.2.1, fun h => F.replaces.kind (by rw [h]; simp)⟩).2.1
    rw [F.replaces.size] at this
    exact this
  rw [htot] at hlay
  have hin := layout_ineq a e.page v.undef img.length v.infoOff v.ninfo (by have := C.page; omega)
    (by rw [← hlay, hmem]; exact C.mem32) (by rw [hv2.1]; omega)
  rw [← hlay] at hin
  obtain ⟨i1, i2, i3, -⟩ := hin
  have hold : ∀ i ∈ parseInfos image v.infoOff v.ninfo, i.isOld → ∃ f ∈ fns, ∃ d len, f.old = some (d, len) ∧
      i.daddr = (d + pe.load).toNat ∧ i.dlen = len := by
    rw [hpar]
    intro i hi ho
    obtain ⟨f, hf, rfl⟩ := List.mem_map.1 hi
    cases hx : f.old with
    | none => exact absurd ⟨by simp [PatchFn.info, hx], by simp [PatchFn.info, hx]⟩ ho
    | some q => exact ⟨f, hf, q.1, q.2, hx, by simp [PatchFn.info, hx], by simp [PatchFn.info, hx]⟩
  have haddr := C.addr
  have hpos := C.pos
  refine ⟨v, l, ⟨F.object, E, W, F.info, C.names, ?_, by rw [hmem]; exact C.addr⟩, hmem, hlen, hpar⟩
  exact {
    view := hview
    region := C.region
    relocated := fun im him => by rw [hi] at him; exact (Option.some.inj him).symm
    layout := by rw [hlen]; exact hlay
    fileLen := F.header
    page := C.page
    size := by rw [htot, hlen]
    mem32 := by rw [hmem]; exact C.mem32
    table := by
      refine ⟨by rw [hv2.1, hv2.2, r1, hlen]; omega, ?_, ?_, ?_⟩
      · intro i hi hc
        rw [hpar] at hi
        obtain ⟨f, hf, rfl⟩ := List.mem_map.1 hi
        obtain ⟨j, hj⟩ := List.getElem?_of_mem hf
        obtain ⟨ii, q1, q2, q3⟩ := F.replaces.records (fun hc => by rw [hc] at hf; simp at hf)
        have hnew := (q3 j f hj).new.1
        have hs : (BitVec.ofNat 64 (kpta + l.elfOffset) + BitVec.ofNat 64 f.new).toNat = 0 := hc.2.2.1
        rw [← BitVec.ofNat_add, BitVec.toNat_ofNat, Nat.mod_eq_of_lt (by omega)] at hs
        omega
      · intro i hi
        rw [hpar] at hi
        obtain ⟨f, hf, rfl⟩ := List.mem_map.1 hi
        rfl
      · intro k hk
        rw [hv2.1, hv2.2, r1]
        exact r3 k hk
    free := by rw [hmem]; exact C.free
    funcs := by
      refine ⟨?_, ?_, ?_⟩
      · intro i hi ho
        obtain ⟨f, hf, d, len, e1, e2, e3⟩ := hold i hi ho
        rw [e3]; exact (C.funcs.long f hf d len e1).1
      · rw [hpar, List.pairwise_map]
        refine C.funcs.disjoint.imp ?_
        intro f g hfg h1 h2
        cases hf : f.old with
        | none => exact absurd ⟨by simp [PatchFn.info, hf], by simp [PatchFn.info, hf]⟩ h1
        | some q =>
          cases hg : g.old with
          | none => exact absurd ⟨by simp [PatchFn.info, hg], by simp [PatchFn.info, hg]⟩ h2
          | some q' =>
            have := hfg q.1 q.2 q'.1 q'.2 hf hg
            simpa [PatchFn.info, hf, hg] using this
      · intro i hi ho
        obtain ⟨f, hf, d, len, e1, e2, e3⟩ := hold i hi ho
        rw [e2, e3]; exact (C.funcs.long f hf d len e1).2
    wait := by
      intro m' x hx
      apply C.wait m' x
      rcases hx with hx | ⟨i, hi, ho, hx⟩
      · left; rw [← hmem]; exact hx
      · obtain ⟨f, hf, d, len, e1, e2, e3⟩ := hold i hi ho
        exact Or.inr ⟨f, hf, d, len, e1, by rw [← e2, ← e3]; exact hx⟩ }

theorem case_of_patch {a : Arch} {ra : RelocArch} {w : Rela Nat → Nat} {abs : Nat} {pe : PrepEnv} {e : ApplyEnv}
    {ids : List (List Byte)} {file : List Byte} {m : Mem}
    {o : ElfObj} {n : Nat} {img : List Byte} {fns : List PatchFn} {kpta : Nat}
    (C : PatchCase a w abs pe e file m o n img fns kpta)
    (hl : ∀ sec e, LocalAct (ra.act sec e) w)
    (hns : ∀ i, o.isRela i → ∀ r ∈ o.rels i, ∀ p s, o.syms[r.sym]? = some p → p.2.sym.shndx = s.shndx →
      p.2.sym.typ = s.typ → p.2.sym.bind = s.bind → ra.Simple r s)
    (hst : StoresAddress ra abs)
    (h : (objectApplyFile a ra pe e ids file m).2.2 = true) :
    ∃ v image l, LoadCase a ra pe e file m o w n img v kpta image l ∧ l.totalMem = patchMemSize a e.page file ∧
      image.length = img.length ∧
      parseInfos image v.infoOff v.ninfo = fns.map (PatchFn.info (BitVec.ofNat 64 (kpta + l.elfOffset)) pe.load) := by
  unfold objectApplyFile at h
  obtain ⟨_, _, image, _, _, _, hi, -, _, -⟩ := objectApply_ok a _ ids file m h
  obtain ⟨v, l, r⟩ := case_of_image C hl hns hst hi
  exact ⟨v, image, l, r⟩

end Verif
