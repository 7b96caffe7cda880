import Verif.Proof.Fixup
import Verif.Props.RelocX86
/-
C68: rewriting the relocations of a linked patch keeps what they refer to.
-/
namespace Verif
open Cpu

/-- For symbols that are not thread-local. -/
theorem one_refers {orig patch : FixObj} {ours : List Nat} {shAddr : Nat} {r r' : Rela X86Rel} {t t' : List Byte}
    (h : fixupRelaOne orig patch ours shAddr r t = some (r', t')) (hl : LinkedObj patch) (P : Placement) {s : FixSym}
    (hs : patch.syms[r.sym]? = some s) (ht : s.sym.typ ≠ .tls) :
    r'.offset = r.offset ∧ refersTo patch P r' = refersTo patch P r ∧
    (r'.typ = r.typ ∨ r.typ = .other 4 ∧ r'.typ = .pc32) ∧ (s.sym.typ ≠ .sect → r'.typ ≠ .other 4) ∧
    (∃ s1, patch.syms[r'.sym]? = some s1 ∧ s1.sym.shndx = s.sym.shndx ∧ s1.sym.typ ≠ .tls) ∧
    (s.sym.shndx = 0 → r'.sym = r.sym) := by
  obtain ⟨s', hs', hc⟩ := one_cases h
  rw [hs] at hs'
  cases hs'
  rcases hc with ⟨h1, rfl, _⟩ | ⟨h1, _⟩ | ⟨h1, _, _, rfl, _⟩ | ⟨h1, h2, _, r1, hr1, rfl, _⟩
  · exact ⟨rfl, rfl, Or.inl rfl, fun a => absurd h1 a, ⟨s, hs, rfl, ht⟩, fun _ => rfl⟩
  · exact absurd h1 ht
  · obtain ⟨p1, p2, p3, p4, p5⟩ := pltToPc_spec r
    refine ⟨p1, ?_, p5, fun _ => p4, ⟨s, by rw [p2]; exact hs, rfl, ht⟩, fun _ => p2⟩
    unfold refersTo
    rw [p2, p3]
  · obtain ⟨p1, p2, p3, p4, p5⟩ := pltToPc_spec r1
    rcases hr1 with rfl | ⟨i, off, hloc, rfl⟩
    · refine ⟨p1, ?_, p5, fun _ => p4, ⟨s, by rw [p2]; exact hs, rfl, ht⟩, fun _ => p2⟩
      unfold refersTo
      rw [p2, p3]
    · unfold localSymLoc at hloc
      split at hloc
      · exact absurd hloc (by simp)
      next j hj =>
      rw [Option.map_eq_some_iff] at hloc
      obtain ⟨o, ho, e⟩ := hloc
      simp only [Prod.mk.injEq] at e
      obtain ⟨rfl, rfl⟩ := e
      obtain ⟨_, s1, e1, e2, e3⟩ := sectionSymFrom_spec hj
      rw [Nat.sub_zero] at e1
      have hn0 : s.sym.shndx ≠ 0 := by
        rw [← e3]; exact hl.1 s1 (List.mem_of_getElem? e1) e2
      refine ⟨p1, ?_, p5, fun _ => p4, ⟨s1, by rw [p2]; exact e1, e3, by rw [e2]; simp⟩, fun a => absurd a hn0⟩
      unfold symOffsetInSection at ho
      rw [if_neg ht] at ho
      split at ho
      · exact absurd ho (by simp)
      next sec hsec =>
      split at ho
      · exact absurd ho (by simp)
      simp only [Option.some.injEq] at ho
      subst ho
      have hlt : s.sym.shndx < 0xff00 := by
        have := (List.getElem?_eq_some_iff.1 hsec).1
        have := hl.2
        omega
      unfold refersTo
      rw [p2, p3]
      simp only [e1, hs, Option.map_some, Option.some.injEq]
      unfold runAddr
      rw [e3, e2, if_neg (by omega), if_pos rfl, if_neg (by omega), if_neg h1, hsec]
      simp only [Option.map_some, Option.getD_some]
      rw [BitVec.add_comm r.addend, BitVec.add_assoc]

/-- C68, relocations against anything but thread-local variables: each relocation keeps its place, and wherever the
sections of the patch and the outside symbols are when the patch runs, it refers to the same address as before.  Its
type stays or changes from a call through the linkage table to a direct call; only relocations against sections can be
left as calls through the linkage table (which are refused when the patch is applied, C25). -/
theorem C68_same_target {orig patch : FixObj} {shAddr : Nat} {rs rs' : List (Rela X86Rel)} {text text' : List Byte}
    (h : fixupRela orig patch shAddr rs text = some (rs', text')) (hl : LinkedObj patch) :
    rs'.length = rs.length ∧
    ∀ (i : Nat) (r : Rela X86Rel) (s : FixSym), rs[i]? = some r → patch.syms[r.sym]? = some s → s.sym.typ ≠ .tls →
      ∃ r', rs'[i]? = some r' ∧ r'.offset = r.offset ∧ (∀ P, refersTo patch P r' = refersTo patch P r) ∧
        (r'.typ = r.typ ∨ r.typ = .other 4 ∧ r'.typ = .pc32) ∧ (s.sym.typ ≠ .sect → r'.typ ≠ .other 4) := by
  obtain ⟨ours, _, hg⟩ := fixupRela_go h
  refine ⟨go_length hg, ?_⟩
  intro i r s hi hs ht
  obtain ⟨r', t, t', e1, e2⟩ := go_each hg i r hi
  refine ⟨r', e1, (one_refers e2 hl ⟨fun _ => 0, fun _ => 0⟩ hs ht).1, fun P => (one_refers e2 hl P hs ht).2.1,
    (one_refers e2 hl ⟨fun _ => 0, fun _ => 0⟩ hs ht).2.2.1, (one_refers e2 hl ⟨fun _ => 0, fun _ => 0⟩ hs ht).2.2.2.1⟩

/-- C68, the code of the patch: it keeps its length, and a byte changes exactly when it is the opcode of a `mov` and
belongs to an instruction that reads the address of something of the program (not of the patch's own sections) from the
global offset table; the `mov` then becomes `lea`. -/
theorem C68_code {orig patch : FixObj} {shAddr : Nat} {rs rs' : List (Rela X86Rel)} {text text' : List Byte}
    (h : fixupRela orig patch shAddr rs text = some (rs', text')) :
    text'.length = text.length ∧ ∀ k : Nat,
      let changes := text[k]? = some 0x8b#8 ∧ ∃ r ∈ rs, r.offset = shAddr + k + 2 ∧ ReadsAddress r.typ ∧
        ∃ s, patch.syms[r.sym]? = some s ∧ OfProgram patch s.sym
      (changes → text'[k]? = some 0x8d#8) ∧ (¬ changes → text'[k]? = text[k]?) := by
  obtain ⟨ours, ho, hg⟩ := fixupRela_go h
  obtain ⟨l, a⟩ := go_text hg
  refine ⟨l, fun k => ?_⟩
  have conv : (∃ r ∈ rs, Changes patch ours r ∧ r.offset = shAddr + k + 2) ↔
      ∃ r ∈ rs, r.offset = shAddr + k + 2 ∧ ReadsAddress r.typ ∧ ∃ s, patch.syms[r.sym]? = some s ∧ OfProgram patch s.sym := by
    constructor
    · rintro ⟨r, hr, hc, e⟩
      obtain ⟨s, h1, h2, h3⟩ := (changes_iff ho r).1 hc
      exact ⟨r, hr, e, h3, s, h1, h2⟩
    · rintro ⟨r, hr, e, h3, s, h1, h2⟩
      exact ⟨r, hr, (changes_iff ho r).2 ⟨s, h1, h2, h3⟩, e⟩
  intro changes
  rcases a k with ⟨e, n⟩ | ⟨e1, e2, c⟩
  · exact ⟨fun hc => absurd hc.1 (n (conv.2 hc.2)), fun _ => e⟩
  · exact ⟨fun _ => e2, fun hn => absurd ⟨e1, conv.1 c⟩ hn⟩

theorem ripInsn_shape {pc a : BitVec 64} {l : List Byte} {reg : BitVec 3} (h : ripInsn pc l = some (.mov reg a)) :
    ∃ m d0 d1 d2 d3, l = [0x8b#8, m, d0, d1, d2, d3] ∧ m &&& 0xc7#8 = 0x05#8 ∧ m.extractLsb' 3 3 = reg := by
  unfold ripInsn at h
  split at h
  next op m d0 d1 d2 d3 =>
    split at h
    next hm =>
      simp only [Option.some.injEq] at h
      split at h
      next hop =>
        subst hop
        simp only [RipInsn.mov.injEq] at h
        exact ⟨m, d0, d1, d2, d3, rfl, hm, h.1⟩
      · split at h <;> simp at h
    · exact absurd h (by simp)
  · exact absurd h (by simp)

theorem bytesAt_getElem? (l : List Byte) (o n k : Nat) (h : k < n) : (bytesAt l o n)[k]? = l[o + k]? := by
  unfold bytesAt
  rw [List.getElem?_take, if_pos h, List.getElem?_drop]

theorem bytesAt_six (l : List Byte) (o : Nat) (a b : Byte) (ha : l[o]? = some a) (hb : l[o + 1]? = some b) :
    bytesAt l o 6 = a :: b :: bytesAt l (o + 2) 4 := by
  unfold bytesAt
  have e1 : l.drop o = a :: l.drop (o + 1) := by
    obtain ⟨hl, he⟩ := List.getElem?_eq_some_iff.1 ha
    rw [← he]; exact List.drop_eq_getElem_cons hl
  have e2 : l.drop (o + 1) = b :: l.drop (o + 1 + 1) := by
    obtain ⟨hl, he⟩ := List.getElem?_eq_some_iff.1 hb
    rw [← he]; exact List.drop_eq_getElem_cons hl
  rw [e1, e2]
  rfl

/-- Decoding an instruction whose displacement field denotes an address. -/
theorem ripInsn_of_field {p x : BitVec 64} {op m : Byte} {f : List Byte} (hm : m &&& 0xc7#8 = 0x05#8)
    (hd : X86Use.rel32.denotes p f = some x) :
    ripInsn (p - 2#64) (op :: m :: f) = some (if op = 0x8b#8 then .mov (m.extractLsb' 3 3) (x + 4#64)
      else if op = 0x8d#8 then .lea (m.extractLsb' 3 3) (x + 4#64) else .alu op (m.extractLsb' 3 3) (x + 4#64)) := by
  unfold X86Use.denotes field32 at hd
  simp only at hd
  split at hd
  next d0 d1 d2 d3 =>
    simp only [Option.map_some, Option.some.injEq] at hd
    subst hd
    unfold ripInsn
    simp only [hm, if_true]
    have : p - 2#64 + 6#64 + (fetch32 d0 d1 d2 d3).signExtend 64 = p + (fetch32 d0 d1 d2 d3).signExtend 64 + 4#64 := by
      generalize (fetch32 d0 d1 d2 d3).signExtend 64 = y
      apply BitVec.eq_of_toNat_eq
      simp only [BitVec.toNat_add, BitVec.toNat_sub, BitVec.toNat_ofNat]
      omega
    rw [this]
  · simp at hd

/-- The rewritten relocations `rs` of a section with the code `text`, linked at `shAddr`, were applied successfully in the
image `img`, in which the section is `sec`: the fields lie inside the section and do not overlap. -/
structure FixApplied (shAddr : Nat) (rs : List (Rela X86Rel)) (text : List Byte) (load : BitVec 64) (sec : RelSec)
    (syms : List Sym) (img : List Byte) : Prop where
  code : ∀ k < sec.size, img[sec.fileOff + k]? = text[k]?
  size : text.length = sec.size
  fits : sec.fileOff + sec.size ≤ img.length
  inside : ∀ r ∈ rs, shAddr ≤ r.offset ∧ r.offset - shAddr + x86Width r ≤ sec.size
  disjoint : rs.Pairwise fun a b => a.offset + x86Width a ≤ b.offset ∨ b.offset + x86Width b ≤ a.offset
  ok : (x86Relocate load sec syms (rs.map (sectionRelative shAddr)) img).2 = true

/-- The instruction of an applied relocation. -/
theorem applied_insn {shAddr : Nat} {rs : List (Rela X86Rel)} {text : List Byte} {load : BitVec 64} {sec : RelSec}
    {syms : List Sym} {img : List Byte} (A : FixApplied shAddr rs text load sec syms img) {r : Rela X86Rel} (hr : r ∈ rs)
    (hu : x86Use r.typ = some .rel32) (h2 : shAddr + 2 ≤ r.offset)
    (hfree : ∀ q ∈ rs, q.offset + x86Width q ≤ r.offset - 2 ∨ r.offset ≤ q.offset)
    {op m : Byte} (hop : text[r.offset - shAddr - 2]? = some op) (hmm : text[r.offset - shAddr - 1]? = some m)
    (hm : m &&& 0xc7#8 = 0x05#8) {x : BitVec 64}
    (hx : x = x86Wanted load sec.isInfo r (symAt syms r.sym))
    (hc : X86Use.rel32.canDenote (sec.addr + BitVec.ofNat 64 (r.offset - shAddr)) x) :
    ripInsn (sec.addr + BitVec.ofNat 64 (r.offset - shAddr) - 2#64)
      (bytesAt (x86Relocate load sec syms (rs.map (sectionRelative shAddr)) img).1
        (sec.fileOff + (r.offset - shAddr - 2)) 6) =
      some (if op = 0x8b#8 then .mov (m.extractLsb' 3 3) (x + 4#64)
        else if op = 0x8d#8 then .lea (m.extractLsb' 3 3) (x + 4#64) else .alu op (m.extractLsb' 3 3) (x + 4#64)) := by
  have hw : ∀ q : Rela X86Rel, x86Width (sectionRelative shAddr q) = x86Width q := fun _ => rfl
  obtain ⟨f1, f2⟩ := C25_fields_denote_partial load sec syms (rs.map (sectionRelative shAddr)) img A.fits
    (by
      intro q hq
      obtain ⟨q', hq', rfl⟩ := List.mem_map.1 hq
      rw [hw]; exact (A.inside q' hq').2)
    (by
      rw [List.pairwise_map]
      refine List.Pairwise.imp_of_mem ?_ A.disjoint
      intro a b ha hb hab
      rw [hw, hw]
      have h3 := A.inside a ha
      have h4 := A.inside b hb
      show a.offset - shAddr + _ ≤ b.offset - shAddr ∨ b.offset - shAddr + _ ≤ a.offset - shAddr
      omega) A.ok
  generalize (x86Relocate load sec syms (rs.map (sectionRelative shAddr)) img).1 = img' at f1 f2 ⊢
  have hin := A.inside r hr
  have keep : ∀ k, (k = r.offset - shAddr - 2 ∨ k = r.offset - shAddr - 1) →
      img'[sec.fileOff + k]? = img[sec.fileOff + k]? := by
    intro k hk
    apply f2
    intro q hq
    obtain ⟨q', hq', rfl⟩ := List.mem_map.1 hq
    rw [hw]
    have := hfree q' hq'
    have := A.inside q' hq'
    show sec.fileOff + k < sec.fileOff + (q'.offset - shAddr) ∨ sec.fileOff + (q'.offset - shAddr) + _ ≤ sec.fileOff + k
    omega
  have k1 : img'[sec.fileOff + (r.offset - shAddr - 2)]? = some op := by
    rw [keep _ (Or.inl rfl), A.code _ (by omega), hop]
  have k2 : img'[sec.fileOff + (r.offset - shAddr - 2) + 1]? = some m := by
    have e : sec.fileOff + (r.offset - shAddr - 2) + 1 = sec.fileOff + (r.offset - shAddr - 1) := by omega
    rw [e, keep _ (Or.inr rfl), A.code _ (by omega), hmm]
  rw [bytesAt_six _ _ _ _ k1 k2]
  have e : sec.fileOff + (r.offset - shAddr - 2) + 2 = sec.fileOff + (r.offset - shAddr) := by omega
  rw [e]
  apply ripInsn_of_field hm
  subst hx
  exact f1 (sectionRelative shAddr r) (List.mem_map_of_mem hr) .rel32 hu hc

/-- C68, reading the address of something of the program: when the relocations have been rewritten and applied, an
instruction that was `mov sym@GOTPCREL(%rip), %reg` sets the same register to the address of the symbol in the running
program.  Not claimed for the patch's own symbols, where it is false (`C68_violated_own`), nor for instructions other
than `mov` (`C68_violated_compare`, `C68_violated_call`). -/
theorem C68_address_partial {orig patch : FixObj} {shAddr : Nat} {rs rs' : List (Rela X86Rel)} {text text' : List Byte}
    (h : fixupRela orig patch shAddr rs text = some (rs', text')) (hl : LinkedObj patch)
    {load : BitVec 64} {sec : RelSec} {syms : List Sym} {img : List Byte} {P : Placement}
    (A : FixApplied shAddr rs' text' load sec syms img) (hres : Resolved patch P syms)
    {i : Nat} {r : Rela X86Rel} (hr : rs[i]? = some r) (hgot : ReadsAddress r.typ) (hadd : r.addend = -4#64)
    {s : FixSym} (hs : patch.syms[r.sym]? = some s) (hdef : OfProgram patch s.sym) (habs : s.sym.shndx < 0xff00)
    (h2 : shAddr + 2 ≤ r.offset) {pc a : BitVec 64} {reg : BitVec 3}
    (hinsn : ripInsn pc (bytesAt text (r.offset - shAddr - 2) 6) = some (.mov reg a))
    (hfree : ∀ q ∈ rs', q.offset + x86Width q ≤ r.offset - 2 ∨ r.offset ≤ q.offset)
    (hreach : X86Use.rel32.canDenote (sec.addr + BitVec.ofNat 64 (r.offset - shAddr)) (runAddr patch P r.sym s.sym - 4#64)) :
    ripInsn (sec.addr + BitVec.ofNat 64 (r.offset - shAddr) - 2#64)
      (bytesAt (x86Relocate load sec syms (rs'.map (sectionRelative shAddr)) img).1
        (sec.fileOff + (r.offset - shAddr - 2)) 6) = some (.lea reg (runAddr patch P r.sym s.sym)) := by
  obtain ⟨ours, _, hg⟩ := fixupRela_go h
  obtain ⟨r', t, t', e1, e2⟩ := go_each hg i r hr
  obtain ⟨o1, o2, o3, _, ⟨s1, o4, o5, o6⟩, _⟩ := one_refers e2 hl P hs hdef.2.2.1
  have hty : r'.typ = r.typ := by
    rcases o3 with e | ⟨e, _⟩
    · exact e
    · rcases hgot with g | g | g <;> rw [g] at e <;> simp [plt32] at e
  have hu : x86Use r'.typ = some .rel32 := by
    rw [hty]; rcases hgot with g | g | g <;> rw [g] <;> rfl
  have hg' : x86IsGot r'.typ = true := by
    rw [hty]; rcases hgot with g | g | g <;> rw [g] <;> rfl
  obtain ⟨m, d0, d1, d2, d3, hb, hm, hreg⟩ := ripInsn_shape hinsn
  have t0 : text[r.offset - shAddr - 2]? = some 0x8b#8 := by
    have := bytesAt_getElem? text (r.offset - shAddr - 2) 6 0 (by omega)
    rw [hb] at this
    exact this.symm
  have t1 : text[r.offset - shAddr - 1]? = some m := by
    have := bytesAt_getElem? text (r.offset - shAddr - 2) 6 1 (by omega)
    rw [hb] at this
    rw [show r.offset - shAddr - 1 = r.offset - shAddr - 2 + 1 by omega]
    exact this.symm
  obtain ⟨_, hc⟩ := C68_code h
  have k0 : text'[r.offset - shAddr - 2]? = some 0x8d#8 :=
    (hc (r.offset - shAddr - 2)).1 ⟨t0, r, List.mem_of_getElem? hr, by omega, hgot, s, hs, hdef⟩
  have k1 : text'[r.offset - shAddr - 1]? = some m := by
    rw [← t1]
    apply (hc (r.offset - shAddr - 1)).2
    rintro ⟨e, _⟩
    rw [t1] at e
    simp only [Option.some.injEq] at e
    subst e
    exact absurd hm (by decide)
  rw [← o1] at hfree k0 k1 hreach h2 ⊢
  obtain ⟨s2, v1, v2, v3, v4⟩ := hres r'.sym s1 o4 o6
  have hsym : symAt syms r'.sym = s2 := by
    unfold symAt
    rw [List.getD_eq_getElem?_getD, v1]; rfl
  have hnu : s2.isUndef = false := by
    unfold Sym.isUndef
    rw [v3, o5]
    have := hdef.1
    simp; omega
  have hw : runAddr patch P r.sym s.sym - 4#64 = x86Wanted load sec.isInfo r' (symAt syms r'.sym) := by
    unfold x86Wanted
    rw [hsym, hg', hnu, v2]
    simp only [Bool.and_false, Bool.false_eq_true, if_false, if_true, o6, v4]
    unfold refersTo at o2
    rw [o4, hs] at o2
    simp only [Option.map_some, Option.some.injEq] at o2
    rw [o2, hadd, BitVec.sub_eq_add_neg]
  have key := applied_insn A (List.mem_of_getElem? e1) hu h2 hfree k0 k1 hm hw hreach
  rw [key, BitVec.sub_add_cancel, hreg]
  simp

/-! ### Thread-local variables -/

theorem one_tls {orig patch : FixObj} {ours : List Nat} {shAddr : Nat} {r r' : Rela X86Rel} {t t' : List Byte}
    (h : fixupRelaOne orig patch ours shAddr r t = some (r', t')) {s : FixSym}
    (hs : patch.syms[r.sym]? = some s) (ht : s.sym.typ = .tls) : updateTls orig s r = some r' := by
  obtain ⟨s', hs', hc⟩ := one_cases h
  rw [hs] at hs'
  cases hs'
  rcases hc with ⟨h1, _⟩ | ⟨_, h1, _⟩ | ⟨_, h1, _⟩ | ⟨_, h1, _⟩
  · rw [ht] at h1; simp at h1
  · exact h1
  · exact absurd ht h1
  · exact absurd ht h1

/-- C68, offsets of thread-local variables in the code of the patch (local-exec model): the code is left as linked only
if the first symbol of that name in the original is a thread-local variable at the same place of the thread-local
segment; when the thread-local segments of the original and of the linked patch have the same size, the offset from the
thread pointer is the same.  The sizes are not compared (`C68_violated_tls_size`). -/
theorem C68_tls_offset_partial {orig patch : FixObj} {shAddr : Nat} {rs rs' : List (Rela X86Rel)} {text text' : List Byte}
    (h : fixupRela orig patch shAddr rs text = some (rs', text'))
    {i : Nat} {r : Rela X86Rel} (hr : rs[i]? = some r) {s : FixSym} (hs : patch.syms[r.sym]? = some s)
    (ht : s.sym.typ = .tls) (hty : r.typ = .tpoff32) :
    (∃ r', rs'[i]? = some r' ∧ r'.typ = .none) ∧
    ∃ o, orig.syms.find? (fun o => o.name == s.name) = some o ∧ o.sym.typ = .tls ∧ o.sym.shndx ≠ 0 ∧
      o.sym.value = s.sym.value ∧ (orig.tlsSize = patch.tlsSize → tpOffset orig o.sym = tpOffset patch s.sym) := by
  obtain ⟨ours, _, hg⟩ := fixupRela_go h
  obtain ⟨r', t, t', e1, e2⟩ := go_each hg i r hr
  have hu := one_tls e2 hs ht
  unfold updateTls at hu
  rw [hty] at hu
  simp only at hu
  split at hu
  · exact absurd hu (by simp)
  next off ho =>
  split at hu
  · exact absurd hu (by simp)
  next hne =>
  simp only [Option.some.injEq] at hu
  refine ⟨⟨r', e1, by rw [← hu]⟩, ?_⟩
  unfold origTlsLoc at ho
  split at ho
  · exact absurd ho (by simp)
  next o hf =>
  split at ho
  · exact absurd ho (by simp)
  next hn0 =>
  split at ho
  · exact absurd ho (by simp)
  next hnt =>
  have hnt' : o.sym.typ = .tls := Decidable.not_not.1 hnt
  unfold symOffsetInSection at ho
  rw [if_pos hnt'] at ho
  simp only [Option.some.injEq] at ho
  have hv : o.sym.value = s.sym.value := by rw [ho]; exact Decidable.not_not.1 hne
  refine ⟨o, hf, hnt', hn0, hv, ?_⟩
  intro e
  unfold tpOffset
  rw [hv, e]

/-- C68, thread-local variables through the global offset table (initial-exec model): the addend becomes the linked
address of the slot of the original program in which the loader puts the offset of the variable.  Assumes that the
original has no relocations for dynamic models of thread-local storage; with them the wrong slot can be taken
(`C68_violated_module_slot`). -/
theorem C68_tls_slot_partial {orig patch : FixObj} {shAddr : Nat} {rs rs' : List (Rela X86Rel)} {text text' : List Byte}
    (h : fixupRela orig patch shAddr rs text = some (rs', text'))
    (hie : ∀ all, orig.relaDyn = some all → ∀ d ∈ all, d.typ ≠ .dtpoff64 ∧ d.typ ≠ .dtpmod64)
    {i : Nat} {r : Rela X86Rel} (hr : rs[i]? = some r) {s : FixSym} (hs : patch.syms[r.sym]? = some s)
    (ht : s.sym.typ = .tls) (hty : r.typ = .gottpoff) :
    ∃ r', rs'[i]? = some r' ∧ r'.offset = r.offset ∧ r'.typ = .gottpoff ∧ r'.sym = r.sym ∧ OffsetSlot orig s r'.addend := by
  obtain ⟨ours, _, hg⟩ := fixupRela_go h
  obtain ⟨r', t, t', e1, e2⟩ := go_each hg i r hr
  have hu := one_tls e2 hs ht
  unfold updateTls at hu
  rw [hty] at hu
  simp only [Option.map_eq_some_iff] at hu
  obtain ⟨got, hgot, rfl⟩ := hu
  refine ⟨_, e1, rfl, rfl, rfl, ?_⟩
  show OffsetSlot orig s got
  have tp : ∀ all, orig.relaDyn = some all → ∀ d ∈ all, isTlsRela d = true → d.typ = .tpoff64 := by
    intro all ha d hd ht
    have := hie all ha d hd
    unfold isTlsRela at ht
    simp only [Bool.or_eq_true, beq_iff_eq] at ht
    rcases ht with (h | h) | h
    · exact h
    · exact absurd h this.1
    · exact absurd h this.2
  unfold tlsGotEntry at hgot
  simp only at hgot
  split at hgot
  next hb =>
    obtain ⟨l, hl, hf⟩ := Option.bind_eq_some_iff.1 hgot
    obtain ⟨all, ha, hm⟩ := mem_of_loadTls hl
    obtain ⟨d, hd, d1, d2, d3, d4⟩ := byOffset_spec hf
    exact ⟨all, ha, d, hm d hd, tp all ha d (hm d hd) d1, d4, Or.inl ⟨hb, d2, d3⟩⟩
  next hb =>
  split at hgot
  next hgl =>
    obtain ⟨l, hl, hf⟩ := Option.bind_eq_some_iff.1 hgot
    obtain ⟨all, ha, hm⟩ := mem_of_loadTls hl
    obtain ⟨d, hd, d1, d2, d3, d4, d5⟩ := byName_spec hf
    have h0 : s.sym.shndx = 0 := Decidable.not_not.1 fun hc => hb (Or.inr hc)
    exact ⟨all, ha, d, hm d hd, tp all ha d (hm d hd) d1, d5, Or.inr ⟨hgl, h0, d2, d4, d3⟩⟩
  · exact absurd hgot (by simp)

/-- C68: any other use of a thread-local variable is refused. -/
theorem C68_tls_refused {orig patch : FixObj} {shAddr : Nat} {rs : List (Rela X86Rel)} {text : List Byte}
    {r : Rela X86Rel} (hr : r ∈ rs) {s : FixSym} (hs : patch.syms[r.sym]? = some s) (ht : s.sym.typ = .tls)
    (h1 : r.typ ≠ .tpoff32) (h2 : r.typ ≠ .gottpoff) : fixupRela orig patch shAddr rs text = none := by
  cases h : fixupRela orig patch shAddr rs text with
  | none => rfl
  | some x =>
    obtain ⟨rs', text'⟩ := x
    obtain ⟨ours, _, hg⟩ := fixupRela_go h
    obtain ⟨i, hi⟩ := List.getElem?_of_mem hr
    obtain ⟨r', t, t', e1, e2⟩ := go_each hg i r hi
    have hu := one_tls e2 hs ht
    unfold updateTls at hu
    split at hu
    next e => exact absurd e h1
    next e => exact absurd e h2
    · exact absurd hu (by simp)

/-- C68, reading the offset of a thread-local variable of the program: when the relocations have been rewritten and
applied, an instruction that was `mov x@gottpoff(%rip), %reg` reads the same register from the slot of the running
program in which the loader put the offset of the variable (the slot's linked address plus the program's load offset).
Not for variables of libraries, where it is false (`C68_violated_library_tls`). -/
theorem C68_tls_read_partial {orig patch : FixObj} {shAddr : Nat} {rs rs' : List (Rela X86Rel)} {text text' : List Byte}
    (h : fixupRela orig patch shAddr rs text = some (rs', text'))
    (hie : ∀ all, orig.relaDyn = some all → ∀ d ∈ all, d.typ ≠ .dtpoff64 ∧ d.typ ≠ .dtpmod64)
    {load : BitVec 64} {sec : RelSec} {syms : List Sym} {img : List Byte}
    (A : FixApplied shAddr rs' text' load sec syms img)
    {i : Nat} {r : Rela X86Rel} (hr : rs[i]? = some r) {s : FixSym} (hs : patch.syms[r.sym]? = some s)
    (ht : s.sym.typ = .tls) (hty : r.typ = .gottpoff) (hdef : s.sym.shndx ≠ 0) (habs : s.sym.shndx < 0xff00)
    {s' : Sym} (hsym : syms[r.sym]? = some s') (hs1 : s'.typ = .tls) (hs2 : s'.shndx = s.sym.shndx)
    (h2 : shAddr + 2 ≤ r.offset) {pc a : BitVec 64} {reg : BitVec 3}
    (hinsn : ripInsn pc (bytesAt text (r.offset - shAddr - 2) 6) = some (.mov reg a))
    (hfree : ∀ q ∈ rs', q.offset + x86Width q ≤ r.offset - 2 ∨ r.offset ≤ q.offset)
    (hreach : ∀ slot, OffsetSlot orig s slot →
      X86Use.rel32.canDenote (sec.addr + BitVec.ofNat 64 (r.offset - shAddr)) (load + slot - 4#64)) :
    ∃ slot, OffsetSlot orig s slot ∧
      ripInsn (sec.addr + BitVec.ofNat 64 (r.offset - shAddr) - 2#64)
        (bytesAt (x86Relocate load sec syms (rs'.map (sectionRelative shAddr)) img).1
          (sec.fileOff + (r.offset - shAddr - 2)) 6) = some (.mov reg (load + slot)) := by
  obtain ⟨r', e1, o1, o2, o3, hslot⟩ := C68_tls_slot_partial h hie hr hs ht hty
  refine ⟨r'.addend, hslot, ?_⟩
  obtain ⟨m, d0, d1, d2, d3, hb, hm, hreg⟩ := ripInsn_shape hinsn
  have t0 : text[r.offset - shAddr - 2]? = some 0x8b#8 := by
    have := bytesAt_getElem? text (r.offset - shAddr - 2) 6 0 (by omega)
    rw [hb] at this
    exact this.symm
  have t1 : text[r.offset - shAddr - 1]? = some m := by
    have := bytesAt_getElem? text (r.offset - shAddr - 2) 6 1 (by omega)
    rw [hb] at this
    rw [show r.offset - shAddr - 1 = r.offset - shAddr - 2 + 1 by omega]
    exact this.symm
  obtain ⟨_, hc⟩ := C68_code h
  have hu : x86Use r'.typ = some .rel32 := by rw [o2]; rfl
  have k0 : text'[r.offset - shAddr - 2]? = some 0x8b#8 := by
    rw [← t0]
    apply (hc (r.offset - shAddr - 2)).2
    rintro ⟨_, q, hq, hqo, hqt, qs, hqs, hqp⟩
    -- another relocation at the same place would overlap
    obtain ⟨j, hj⟩ := List.getElem?_of_mem hq
    obtain ⟨ours, _, hg⟩ := fixupRela_go h
    obtain ⟨q', t, t', f1, f2⟩ := go_each hg j q hj
    have hcase := one_cases f2
    have hq' : q'.offset = q.offset ∧ q'.typ = q.typ := by
      obtain ⟨s0, hs0, hc0⟩ := hcase
      rw [hqs] at hs0
      cases hs0
      have np : ∀ x : Rela X86Rel, x.typ = q.typ → (pltToPc x).typ = x.typ := by
        intro x hx
        unfold pltToPc
        rw [if_neg]
        rw [hx]
        rcases hqt with g | g | g <;> rw [g] <;> simp [plt32]
      rcases hc0 with ⟨_, rfl, _⟩ | ⟨g, _⟩ | ⟨_, _, _, rfl, _⟩ | ⟨_, _, _, r1, hr1, rfl, _⟩
      · exact ⟨rfl, rfl⟩
      · exact absurd g hqp.2.2.1
      · exact ⟨(pltToPc_spec q).1, np q rfl⟩
      · rcases hr1 with rfl | ⟨_, _, _, rfl⟩
        · exact ⟨(pltToPc_spec _).1, np _ rfl⟩
        · exact ⟨(pltToPc_spec _).1, np _ rfl⟩
    have hij : i ≠ j := by
      rintro rfl
      rw [hr] at hj
      cases hj
      rcases hqt with g | g | g <;> rw [g] at hty <;> simp at hty
    have wr : x86Width r' = 4 := by unfold x86Width; rw [hu]; rfl
    have wq : x86Width q' = 4 := by
      unfold x86Width; rw [hq'.2]; rcases hqt with g | g | g <;> rw [g] <;> rfl
    have hpw := List.pairwise_iff_getElem.1 A.disjoint
    obtain ⟨li, gi⟩ := List.getElem?_eq_some_iff.1 e1
    obtain ⟨lj, gj⟩ := List.getElem?_eq_some_iff.1 f1
    rcases Nat.lt_or_gt_of_ne hij with g | g
    · have := hpw i j li lj g
      rw [gi, gj, wr, wq] at this
      omega
    · have := hpw j i lj li g
      rw [gi, gj, wr, wq] at this
      omega
  have k1 : text'[r.offset - shAddr - 1]? = some m := by
    rw [← t1]
    apply (hc (r.offset - shAddr - 1)).2
    rintro ⟨e, _⟩
    rw [t1] at e
    simp only [Option.some.injEq] at e
    subst e
    exact absurd hm (by decide)
  have hreach' := hreach _ hslot
  rw [← o1] at hfree k0 k1 hreach' h2 ⊢
  have hsy : symAt syms r'.sym = s' := by
    unfold symAt
    rw [o3, List.getD_eq_getElem?_getD, hsym]; rfl
  have hnu : s'.isUndef = false := by
    unfold Sym.isUndef
    rw [hs2]
    simp; omega
  have hw : load + r'.addend - 4#64 = x86Wanted load sec.isInfo r' (symAt syms r'.sym) := by
    unfold x86Wanted
    rw [hsy, o2, hnu, hs1]
    simp [x86IsGot]
  have key := applied_insn A (List.mem_of_getElem? e1) hu h2 hfree k0 k1 hm hw hreach'
  rw [key, BitVec.sub_add_cancel, hreg]
  simp

/-! ### What is accepted -/

theorem kpatchSectionsFrom_length (l : List FixSec) (i : Nat) :
    (kpatchSectionsFrom l i).length = (l.filter fun s => (lit ".kpatch").isPrefixOf s.name).length := by
  induction l generalizing i with
  | nil => rfl
  | cons s ss ih =>
    unfold kpatchSectionsFrom
    rw [List.filter_cons]
    split <;> simp [ih]

theorem kpatchSections_isSome (o : FixObj) : (kpatchSections o).isSome ↔ FewOwnSections o := by
  unfold kpatchSections FewOwnSections
  dsimp only
  rw [kpatchSectionsFrom_length]
  split
  · next h => simp only [Option.isSome_none, Bool.false_eq_true, false_iff]; omega
  · next h => simp only [Option.isSome_some, true_iff]; omega

theorem sectionSymFrom_isSome {shndx : Nat} {l : List FixSym} {i : Nat}
    (h : ∃ q ∈ l, q.sym.typ = .sect ∧ q.sym.shndx = shndx) : ∃ k, sectionSymFrom shndx l i = some k := by
  induction l generalizing i with
  | nil => obtain ⟨q, hq, -⟩ := h; cases hq
  | cons s ss ih =>
    unfold sectionSymFrom
    split
    · exact ⟨_, rfl⟩
    · next hn =>
      obtain ⟨q, hq, h1⟩ := h
      rcases List.mem_cons.1 hq with rfl | hq
      · exact absurd h1 hn
      · exact ih ⟨q, hq, h1⟩

theorem one_accepted {orig patch : FixObj} {ours : List Nat} {shAddr : Nat} {r : Rela X86Rel} {text : List Byte}
    (h : Rewritable patch shAddr text.length r) :
    ∃ r' text', fixupRelaOne orig patch ours shAddr r text = some (r', text') ∧ text'.length = text.length := by
  obtain ⟨s, hs, h1, h2, h3, h4⟩ := h
  unfold fixupRelaOne
  rw [hs]
  dsimp only
  by_cases hsec : s.sym.typ = .sect
  · rw [if_pos hsec]
    exact ⟨_, _, rfl, rfl⟩
  · rw [if_neg hsec, if_neg h1]
    by_cases hour : isOurSection ours s.sym.shndx = true
    · rw [if_pos hour]
      exact ⟨_, _, rfl, rfl⟩
    · rw [if_neg hour, if_neg (by
        rintro ⟨a, b, c, d⟩
        rcases h2 with h | h | h | h | h
        · exact a h
        · exact b h
        · exact c h
        · exact hsec h
        · exact d h)]
      have hr1 : ∃ r1, (if s.sym.bind = .loc ∧ s.name.head? = some 0x2e#8 then
          (localSymLoc patch s.sym).map fun (i, off) => { r with sym := i, addend := r.addend + off }
          else some r) = some r1 ∧ r1.typ = r.typ ∧ r1.offset = r.offset := by
        split
        · next hl =>
          obtain ⟨⟨sec, k1, k2⟩, k3⟩ := h3 hl.1 hl.2
          obtain ⟨k, hk⟩ := sectionSymFrom_isSome (i := 0) k3
          have : localSymLoc patch s.sym = some (k, s.sym.value - sec.addr) := by
            unfold localSymLoc symOffsetInSection
            rw [hk, if_neg h1, k1]
            dsimp only
            rw [if_neg (by bv_omega)]
            rfl
          rw [this]
          exact ⟨_, rfl, rfl, rfl⟩
        · exact ⟨r, rfl, rfl, rfl⟩
      obtain ⟨r1, e1, e2, e3⟩ := hr1
      rw [e1]
      dsimp only
      split
      · next hg =>
        have hra : ReadsAddress r.typ := by
          rw [← e2]
          have := hg.2
          unfold isGotPcrel at this
          unfold ReadsAddress
          split at this
          · next h => exact Or.inl h
          · next h => exact Or.inr (Or.inr h)
          · next h => exact Or.inr (Or.inl h)
          · cases this
        obtain ⟨k1, k2⟩ := h4 hra
        have : ∃ text', movToLea shAddr r1 text = some text' ∧ text'.length = text.length := by
          unfold movToLea
          rw [e3, if_neg (by omega), List.getElem?_eq_getElem k2]
          dsimp only
          refine ⟨_, rfl, ?_⟩
          split
          · rw [List.length_set]
          · rfl
        obtain ⟨text', k3, k4⟩ := this
        rw [k3]
        exact ⟨_, _, rfl, k4⟩
      · exact ⟨_, _, rfl, rfl⟩

theorem go_accepted {orig patch : FixObj} {ours : List Nat} {shAddr n : Nat} {rs : List (Rela X86Rel)} {text : List Byte}
    (hn : text.length = n) (h : ∀ r ∈ rs, Rewritable patch shAddr n r) :
    (fixupRelaGo orig patch ours shAddr rs text).isSome := by
  induction rs generalizing text with
  | nil => rfl
  | cons r rs ih =>
    obtain ⟨r', text', h1, h2⟩ := one_accepted (orig := orig) (ours := ours) (hn ▸ h r List.mem_cons_self)
    have h3 := ih (text := text') (by omega) fun q hq => h q (List.mem_cons_of_mem _ hq)
    obtain ⟨x, hx⟩ := Option.isSome_iff_exists.1 h3
    unfold fixupRelaGo
    rw [h1]
    dsimp only
    rw [hx]
    rfl

/-- **C68**, what is accepted: if the original and the patch have at most sixteen sections of their own each and every
relocation has what is needed, the section is rewritten; and it is refused when one of them has more. -/
theorem C68_accepted (orig patch : FixObj) (shAddr : Nat) (rs : List (Rela X86Rel)) (text : List Byte) :
    (FewOwnSections orig → FewOwnSections patch → (∀ r ∈ rs, Rewritable patch shAddr text.length r) →
      (fixupRela orig patch shAddr rs text).isSome) ∧
    (¬ FewOwnSections orig ∨ ¬ FewOwnSections patch → fixupRela orig patch shAddr rs text = none) := by
  constructor
  · intro h1 h2 h3
    obtain ⟨a, ha⟩ := Option.isSome_iff_exists.1 ((kpatchSections_isSome orig).2 h1)
    obtain ⟨b, hb⟩ := Option.isSome_iff_exists.1 ((kpatchSections_isSome patch).2 h2)
    unfold fixupRela
    rw [ha, hb]
    exact go_accepted rfl h3
  · intro h
    unfold fixupRela
    rw [← kpatchSections_isSome, ← kpatchSections_isSome] at h
    cases ha : kpatchSections orig with
    | none => rfl
    | some a =>
      cases hb : kpatchSections patch with
      | none => rfl
      | some b => rw [ha, hb] at h; simp at h

/-! ### Non-vacuity: a patch with a call, a string constant, the address of a variable and two thread-local variables -/

namespace ExFix

/-- The program: a thread-local variable `x` at offset 8 and `y` at offset 16 of a segment of 24 bytes; the loader puts
the offset of `x` at 0x3fe0 and that of the library's `errno` at 0x3fd8. -/
def orig : FixObj where
  secs := [⟨[], 0⟩, ⟨lit ".text", 0x1000⟩]
  syms := [⟨[], ⟨0, 0, 0, .notype, .loc⟩⟩, ⟨lit "x", ⟨8, 4, 3, .tls, .glob⟩⟩, ⟨lit "y", ⟨16, 4, 3, .tls, .glob⟩⟩]
  dynNames := [[], lit "errno"]
  relaDyn := some [⟨0x3000, .other, 0, 0x1000⟩, ⟨0x3fd8, .tpoff64, 1, 0⟩, ⟨0x3fe0, .tpoff64, 0, 8⟩, ⟨0x3ff0, .other, 1, 0⟩]
  tlsSize := 24

/-- The linked patch. -/
def patch : FixObj where
  secs := [⟨[], 0⟩, ⟨lit ".text", 0x1000⟩, ⟨lit ".rodata", 0x2000⟩, ⟨lit ".data", 0x4000⟩, ⟨lit ".kpatch.text", 0x6000⟩,
    ⟨lit ".kpatch.data", 0x7000⟩]
  syms := [⟨[], ⟨0, 0, 0, .notype, .loc⟩⟩, ⟨[], ⟨0x2000, 0, 2, .sect, .loc⟩⟩, ⟨lit ".LC0", ⟨0x2010, 0, 2, .notype, .loc⟩⟩,
    ⟨lit "f", ⟨0x1100, 0, 1, .func, .glob⟩⟩, ⟨lit "var", ⟨0x4020, 4, 3, .object, .glob⟩⟩,
    ⟨lit "new", ⟨0x7008, 4, 5, .object, .glob⟩⟩, ⟨lit "x", ⟨8, 4, 3, .tls, .glob⟩⟩, ⟨lit "y", ⟨16, 4, 3, .tls, .glob⟩⟩,
    ⟨lit "errno@GLIBC_PRIVATE", ⟨0, 0, 0, .tls, .glob⟩⟩]
  tlsSize := 24

/-- `call f@PLT; lea .LC0(%rip), %rax; mov var@GOTPCREL(%rip), %rcx; mov x@gottpoff(%rip), %rdx; mov %fs:y@tpoff, %eax`. -/
def text : List Byte :=
  [0xe8, 0, 0, 0, 0, 0x48, 0x8d, 0x05, 0, 0, 0, 0, 0x48, 0x8b, 0x0d, 0, 0, 0, 0, 0x48, 0x8b, 0x15, 0, 0, 0, 0,
   0x64, 0x8b, 0x04, 0x25, 0xf8, 0xff, 0xff, 0xff]

def rels : List (Rela X86Rel) :=
  [⟨0x6001, plt32, 3, -4#64⟩, ⟨0x6008, .pc32, 2, -4#64⟩, ⟨0x600f, .rexGotpcrelx, 4, -4#64⟩, ⟨0x6016, .gottpoff, 6, -4#64⟩,
   ⟨0x601e, .tpoff32, 7, 0⟩]

def rels' : List (Rela X86Rel) :=
  [⟨0x6001, .pc32, 3, -4#64⟩, ⟨0x6008, .pc32, 1, 0xc#64⟩, ⟨0x600f, .rexGotpcrelx, 4, -4#64⟩, ⟨0x6016, .gottpoff, 6, 0x3fe0#64⟩,
   ⟨0x601e, .none, 0, 0⟩]

deriving instance DecidableEq for Rela

theorem fixed : fixupRela orig patch 0x6000 rels text = some (rels', text.set 13 0x8d#8) := by decide +kernel

example : LinkedObj patch := by
  constructor
  · decide +kernel
  · decide

example : (fixupRela orig patch 0x6000 (rels.take 3) text).isSome :=
  (C68_accepted orig patch 0x6000 (rels.take 3) text).1 (by unfold FewOwnSections; decide +kernel)
    (by unfold FewOwnSections; decide +kernel) (by
      intro r hr
      have hr' : r = ⟨0x6001, plt32, 3, -4#64⟩ ∨ r = ⟨0x6008, .pc32, 2, -4#64⟩ ∨ r = ⟨0x600f, .rexGotpcrelx, 4, -4#64⟩ := by
        simpa [rels] using hr
      rcases hr' with rfl | rfl | rfl
      · exact ⟨_, rfl, by decide, Or.inr (Or.inl rfl), by decide +kernel, by rintro (h | h | h) <;> simp [plt32] at h⟩
      · exact ⟨_, rfl, by decide, Or.inl rfl, by decide +kernel, by rintro (h | h | h) <;> simp at h⟩
      · exact ⟨_, rfl, by decide, Or.inr (Or.inr (Or.inl rfl)), by decide +kernel, fun _ => by decide⟩)

/-- The sections when the patch runs: the program's moved by 0x10000000, the patch's own elsewhere. -/
def place : Placement where
  sec n := if n = 4 then 0x20006000#64 else if n = 5 then 0x20007000#64
    else if n = 1 then 0x10001000#64 else if n = 2 then 0x20002000#64 else 0x10004000#64
  ext _ := 0

def syms : List Sym :=
  [⟨0, 0, 0, .notype, .loc⟩, ⟨0x20002000#64, 0, 2, .sect, .loc⟩, ⟨0x20002010#64, 0, 2, .notype, .loc⟩,
   ⟨0x10001100#64, 0, 1, .func, .glob⟩, ⟨0x10004020#64, 4, 3, .object, .glob⟩, ⟨0x20007008#64, 4, 5, .object, .glob⟩,
   ⟨8, 4, 3, .tls, .glob⟩, ⟨16, 4, 3, .tls, .glob⟩, ⟨0, 0, 0, .tls, .glob⟩]

def sec : RelSec := { fileOff := 3, size := 34, addr := 0x20006000#64 }

def img : List Byte := [1, 2, 3] ++ text.set 13 0x8d#8 ++ [4, 5]

theorem resolved : Resolved patch place syms := by
  intro i s h ht
  have key : ∀ i < 9, ∀ s, patch.syms[i]? = some s → s.sym.typ ≠ .tls →
      ∃ s', syms[i]? = some s' ∧ s'.typ = s.sym.typ ∧ s'.shndx = s.sym.shndx ∧ s'.value = runAddr patch place i s.sym := by
    intro i hi s h ht
    have e : ∀ j < 9, ((patch.syms[j]?).all fun s => s.sym.typ == .tls || (syms[j]?).any fun s' => s'.typ == s.sym.typ &&
        s'.shndx == s.sym.shndx && s'.value == runAddr patch place j s.sym) = true := by decide +kernel
    have e' := e i hi
    rw [h] at e'
    simp only [Option.all_some, Bool.or_eq_true, beq_iff_eq] at e'
    rcases e' with e' | e'
    · exact absurd e' ht
    · cases hs : syms[i]? with
      | none => rw [hs] at e'; simp at e'
      | some s' =>
        rw [hs] at e'
        simp only [Option.any_some, Bool.and_eq_true, beq_iff_eq] at e'
        exact ⟨s', rfl, e'.1.1, e'.1.2, e'.2⟩
  have hlt : i < patch.syms.length := (List.getElem?_eq_some_iff.1 h).1
  exact key i hlt s h ht

theorem applied : FixApplied 0x6000 rels' (text.set 13 0x8d#8) 0x10000000#64 sec syms img where
  code := by decide +kernel
  size := by decide +kernel
  fits := by decide +kernel
  inside := by decide +kernel
  disjoint := by decide +kernel
  ok := by decide +kernel

/-- The patched instruction computes the address of `var`, 0x10004020. -/
example : ripInsn (0x20006000#64 + 0xf#64 - 2#64)
    (bytesAt (x86Relocate 0x10000000#64 sec syms (rels'.map (sectionRelative 0x6000)) img).1 (3 + (0xf - 2)) 6) =
    some (.lea 1 0x10004020#64) := by
  have := C68_address_partial fixed (by constructor <;> decide +kernel) applied resolved (i := 2)
    (r := ⟨0x600f, .rexGotpcrelx, 4, -4#64⟩) (by decide +kernel) (Or.inr (Or.inr rfl)) rfl
    (s := ⟨lit "var", ⟨0x4020, 4, 3, .object, .glob⟩⟩) (by decide +kernel)
    ⟨by decide, by decide, by decide, by
      rintro ⟨_, sec, h1, h2⟩
      have : sec = ⟨lit ".data", 0x4000⟩ := by
        have h3 : patch.secs[3]? = some ⟨lit ".data", 0x4000⟩ := by decide +kernel
        exact Option.some.inj (h1.symm.trans h3)
      rw [this] at h2
      exact absurd (List.isPrefixOf_iff_prefix.2 h2) (by decide +kernel)⟩
    (by decide) (by decide) (pc := 0) (reg := 1) (a := 6#64) (by decide +kernel) (by decide +kernel)
    (by unfold X86Use.canDenote; decide +kernel)
  have e : runAddr patch place 4 ⟨0x4020, 4, 3, .object, .glob⟩ = 0x10004020#64 := by decide +kernel
  rw [e] at this
  exact this

/-- The offset of `x` is read from the program's slot 0x3fe0. -/
example : ∃ slot, OffsetSlot orig ⟨lit "x", ⟨8, 4, 3, .tls, .glob⟩⟩ slot ∧
    ripInsn (0x20006000#64 + 0x16#64 - 2#64)
      (bytesAt (x86Relocate 0x10000000#64 sec syms (rels'.map (sectionRelative 0x6000)) img).1 (3 + (0x16 - 2)) 6) =
      some (.mov 2 (0x10000000#64 + slot)) := by
  refine C68_tls_read_partial fixed ?_ applied (i := 3) (r := ⟨0x6016, .gottpoff, 6, -4#64⟩) (by decide +kernel)
    (s := ⟨lit "x", ⟨8, 4, 3, .tls, .glob⟩⟩) (by decide +kernel) rfl rfl (by decide) (by decide)
    (s' := ⟨8, 4, 3, .tls, .glob⟩) (by decide +kernel) rfl rfl (by decide) (pc := 0) (reg := 2) (a := 6#64)
    (by decide +kernel) (by decide +kernel) ?_
  · intro all ha d hd
    simp only [orig, Option.some.injEq] at ha
    subst ha
    revert d
    decide +kernel
  · rintro slot ⟨all, ha, d, hd, h1, h2, h3⟩
    simp only [orig, Option.some.injEq] at ha
    subst ha
    have : slot = 0x3fe0#64 := by
      rcases h3 with ⟨_, h4, h5⟩ | ⟨_, h4, _⟩
      · subst h2
        simp only [List.mem_cons, List.not_mem_nil, or_false] at hd
        rcases hd with rfl | rfl | rfl | rfl
        · exact absurd h1 (by decide)
        · exact absurd h4 (by decide)
        · rfl
        · exact absurd h1 (by decide)
      · simp at h4
    subst this
    unfold X86Use.canDenote
    decide +kernel

end ExFix

/-! ### What is not kept -/

namespace ExFix

/-- A section with the instruction `i` at its start and one relocation of the patch above at its third byte, rewritten
and applied: the decoded instruction at run time. -/
def runOne (o p : FixObj) (i : List Byte) (r : Rela X86Rel) : Option RipInsn :=
  match fixupRela o p 0x6000 [r] i with
  | none => none
  | some (rs, t) =>
    let res := x86Relocate 0x10000000#64 { sec with fileOff := 0, size := i.length } syms (rs.map (sectionRelative 0x6000)) t
    if res.2 then ripInsn (0x20006000#64 + BitVec.ofNat 64 (r.offset - 0x6000) - 2#64) (bytesAt res.1 (r.offset - 0x6000 - 2) 6)
    else none

end ExFix
open ExFix

/-- C68 is false for the patch's own variables: `mov new@GOTPCREL(%rip), %rcx`, which must set the register to the
address of `new`, 0x20007008, stays a `mov` but refers to the variable instead of a slot with its address, so that the
register gets the contents of the variable.  With a variable of the program it is `lea`. -/
theorem C68_violated_own :
    runOne orig patch [0x48, 0x8b, 0x0d, 0, 0, 0, 0] ⟨0x6003, .rexGotpcrelx, 5, -4#64⟩ = some (.mov 1 0x20007008#64) ∧
    runOne orig patch [0x48, 0x8b, 0x0d, 0, 0, 0, 0] ⟨0x6003, .rexGotpcrelx, 4, -4#64⟩ = some (.lea 1 0x10004020#64) := by
  decide +kernel

/-- C68 is false for other instructions with an address from the global offset table: `cmp var@GOTPCREL(%rip), %rcx`
(opcode 3b) must compare the register with the address of `var`; it compares it with the contents of `var`. -/
theorem C68_violated_compare :
    runOne orig patch [0x48, 0x3b, 0x0d, 0, 0, 0, 0] ⟨0x6003, .rexGotpcrelx, 4, -4#64⟩ =
      some (.alu 0x3b 1 0x10004020#64) := by
  decide +kernel

/-- C68 is false for calls through the global offset table: `call *f@GOTPCREL(%rip)` (opcode ff, register field 2) must
call `f`; it calls the address that the first eight bytes of the code of `f`, at 0x10001100, happen to form. -/
theorem C68_violated_call :
    runOne orig patch [0xff, 0x15, 0, 0, 0, 0] ⟨0x6002, .gotpcrelx, 3, -4#64⟩ = some (.alu 0xff 2 0x10001100#64) := by
  decide +kernel

/-- C68 is false for thread-local variables of libraries: the slot of `errno` is found, 0x3fd8, but the relocation is
applied as if it was against a function of a library, and the instruction reads address 0x3fe4 instead of
0x10003fd8. -/
theorem C68_violated_library_tls :
    runOne orig patch [0x48, 0x8b, 0x15, 0, 0, 0, 0] ⟨0x6003, .gottpoff, 8, -4#64⟩ = some (.mov 2 0x3fe4#64) ∧
    OffsetSlot orig ⟨lit "errno@GLIBC_PRIVATE", ⟨0, 0, 0, .tls, .glob⟩⟩ 0x3fd8#64 := by
  refine ⟨by decide +kernel, _, rfl, ⟨0x3fd8, .tpoff64, 1, 0⟩, by decide +kernel, rfl, rfl, Or.inr ⟨rfl, rfl, by decide, rfl, ?_⟩⟩
  decide +kernel

/-- C68 is false when the program also uses a dynamic model of thread-local storage: for a variable at offset 0 of the
segment the slot with the program's module number, at 0x3fc0, is taken, although the offset of the variable is in the
slot at 0x3fe0. -/
theorem C68_violated_module_slot :
    let o : FixObj := { orig with relaDyn := some [⟨0x3fc0, .dtpmod64, 0, 0⟩, ⟨0x3fe0, .tpoff64, 0, 0⟩] }
    let z : FixSym := ⟨lit "z", ⟨0, 4, 3, .tls, .glob⟩⟩
    let p : FixObj := { patch with syms := patch.syms.set 6 z }
    (fixupRela o p 0x6000 [⟨0x6003, .gottpoff, 6, -4#64⟩] [0x48, 0x8b, 0x15, 0, 0, 0, 0]).map (·.1) =
      some [⟨0x6003, .gottpoff, 6, 0x3fc0#64⟩] ∧ OffsetSlot o z 0x3fe0#64 ∧ ¬ OffsetSlot o z 0x3fc0#64 := by
  intro o z p
  refine ⟨by decide +kernel, ⟨_, rfl, ⟨0x3fe0, .tpoff64, 0, 0⟩, by decide, rfl, rfl, Or.inl ⟨Or.inr (by decide), rfl, rfl⟩⟩, ?_⟩
  rintro ⟨all, ha, d, hd, h1, h2, _⟩
  simp only [o, Option.some.injEq] at ha
  subst ha
  simp only [List.mem_cons, List.not_mem_nil, or_false] at hd
  rcases hd with rfl | rfl
  · exact absurd h1 (by decide)
  · exact absurd h2 (by decide)

/-- C68 is false when the thread-local segments differ in size: the patch is accepted, although the same variable has
another offset from the thread pointer in the linked patch (-16) than in the original (-8). -/
theorem C68_violated_tls_size :
    let p : FixObj := { patch with tlsSize := 32 }
    let y : Sym := ⟨16, 4, 3, .tls, .glob⟩
    (fixupRela orig p 0x6000 [⟨0x6004, .tpoff32, 7, 0⟩] [0x64, 0x8b, 0x04, 0x25, 0xf0, 0xff, 0xff, 0xff]).isSome = true ∧
    p.syms[7]? = some ⟨lit "y", y⟩ ∧ orig.syms[2]? = some ⟨lit "y", y⟩ ∧ tpOffset p y = -16 ∧ tpOffset orig y = -8 := by
  decide +kernel

end Verif
