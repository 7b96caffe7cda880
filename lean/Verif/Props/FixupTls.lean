import Verif.Proof.FixupTls
import Verif.Props.RelocRiscv
import Verif.Props.RelocA64
/-
C74: rewriting the relocations of a linked patch on AArch64, RISC-V and LoongArch.
-/
namespace Verif
open Cpu

theorem archFix_targets {T : Type} {upd : FixSym → Rela T → Option (Rela T)} {copied : CStr → Bool} {orig patch p' : FixObj}
    {rs rs' : List (Rela T)}
    (H : ∀ s ∈ patch.syms, copied s.name = true → s.sym.bind = .loc → s.name.head? ≠ some 0x2e#8)
    (h : archFix upd copied orig patch rs = some (rs', p')) (hl : LinkedObj patch) :
    rs'.length = rs.length ∧
    ∀ (i : Nat) (r : Rela T) (s : FixSym), rs[i]? = some r → patch.syms[r.sym]? = some s → s.sym.typ ≠ .tls →
      ∃ r', rs'[i]? = some r' ∧ r'.offset = r.offset ∧ r'.typ = r.typ ∧
        ∀ P, archRefersTo patch P r' = archRefersTo patch P r := by
  obtain ⟨ours, _, _, h1, h2⟩ := archFix_spec H h
  refine ⟨h1, ?_⟩
  intro i r s hr hs ht
  obtain ⟨r', e1, e2⟩ := h2 i r hr
  exact ⟨r', e1, archFixOne_refers e2 hl hs ht⟩

theorem copied_dot {orig patch : FixObj}
    (hdot : ∀ s ∈ patch.syms, s.sym.bind = .loc → s.name.head? = some 0x2e#8 → 0x40#8 ∉ s.name) :
    ∀ s ∈ patch.syms, copiedName orig s.name = true → s.sym.bind = .loc → s.name.head? ≠ some 0x2e#8 := by
  intro s hs hc hb hh
  unfold copiedName at hc
  simp only [Bool.and_eq_true, List.contains_iff_mem] at hc
  exact hdot s hs hb hh hc.1

theorem copiedName_iff (orig : FixObj) (name : CStr) : copiedName orig name = true ↔ Imported orig name := by
  unfold copiedName Imported
  simp only [Bool.and_eq_true, List.contains_iff_mem, Bool.not_eq_true', List.any_eq_false, beq_iff_eq]
  refine and_congr_right fun _ => ⟨fun h i s hs hi => ?_, fun h s hs => ?_⟩
  · apply h
    have : (orig.secs.drop 1)[i - 1]? = some s := by rw [List.getElem?_drop, show 1 + (i - 1) = i by omega, hs]
    exact List.mem_of_getElem? this
  · obtain ⟨i, hi⟩ := List.getElem?_of_mem hs
    rw [List.getElem?_drop] at hi
    exact h _ s hi (by omega)

/-- C74, relocations against anything but thread-local variables on RISC-V: each keeps its place and its type, and
wherever the sections of the patch and the outside symbols are when the patch runs, it refers to the same address as
before.  Machine-generated labels (local, with a dot in front) have no `@` in their names. -/
theorem C74_same_target_riscv {orig patch patch' : FixObj} {dyn : Option (List (DynRelOf RvDyn))}
    {rs rs' : List (Rela RvFixRel)} (h : rvFixup orig dyn patch rs = some (rs', patch')) (hl : LinkedObj patch)
    (hdot : ∀ s ∈ patch.syms, s.sym.bind = .loc → s.name.head? = some 0x2e#8 → 0x40#8 ∉ s.name) :
    rs'.length = rs.length ∧
    ∀ (i : Nat) (r : Rela RvFixRel) (s : FixSym), rs[i]? = some r → patch.syms[r.sym]? = some s → s.sym.typ ≠ .tls →
      ∃ r', rs'[i]? = some r' ∧ r'.offset = r.offset ∧ r'.typ = r.typ ∧
        ∀ P, archRefersTo patch P r' = archRefersTo patch P r :=
  archFix_targets (copied_dot hdot) h hl

/-- C74, relocations against anything but thread-local variables on LoongArch. -/
theorem C74_same_target_loongarch {orig patch patch' : FixObj} {dyn : Option (List (DynRelOf LoongDyn))}
    {rs rs' : List (Rela LoongFixRel)} (h : loongFixup orig dyn patch rs = some (rs', patch')) (hl : LinkedObj patch)
    (hdot : ∀ s ∈ patch.syms, s.sym.bind = .loc → s.name.head? = some 0x2e#8 → 0x40#8 ∉ s.name) :
    rs'.length = rs.length ∧
    ∀ (i : Nat) (r : Rela LoongFixRel) (s : FixSym), rs[i]? = some r → patch.syms[r.sym]? = some s → s.sym.typ ≠ .tls →
      ∃ r', rs'[i]? = some r' ∧ r'.offset = r.offset ∧ r'.typ = r.typ ∧
        ∀ P, archRefersTo patch P r' = archRefersTo patch P r :=
  archFix_targets (copied_dot hdot) h hl

theorem marked_never (ours : List Nat) (refs : List Nat) (syms : List FixSym) :
    marked (hitSym (fun _ => false) ours) refs syms = syms := by
  apply List.ext_getElem?
  intro i
  rw [marked_get]
  cases syms[i]? <;> simp [hitSym]

/-- C74, relocations against anything but thread-local variables on AArch64; the symbols are not changed. -/
theorem C74_same_target_aarch64 {orig patch patch' : FixObj} {shAddr : Nat} {text : List Byte}
    {rs rs' : List (Rela A64Rel)} (h : a64Fixup orig patch shAddr text rs = some (rs', patch')) (hl : LinkedObj patch) :
    patch' = patch ∧ rs'.length = rs.length ∧
    ∀ (i : Nat) (r : Rela A64Rel) (s : FixSym), rs[i]? = some r → patch.syms[r.sym]? = some s → s.sym.typ ≠ .tls →
      ∃ r', rs'[i]? = some r' ∧ r'.offset = r.offset ∧ r'.typ = r.typ ∧
        ∀ P, archRefersTo patch P r' = archRefersTo patch P r := by
  refine ⟨?_, archFix_targets (by simp) h hl⟩
  obtain ⟨ours, _, h1, _⟩ := archFix_spec (by simp) h
  rw [h1, marked_never]

theorem archFix_symbols {T : Type} {upd : FixSym → Rela T → Option (Rela T)} {orig patch p' : FixObj}
    {rs rs' : List (Rela T)}
    (hdot : ∀ s ∈ patch.syms, s.sym.bind = .loc → s.name.head? = some 0x2e#8 → 0x40#8 ∉ s.name)
    (h : archFix upd (copiedName orig) orig patch rs = some (rs', p')) :
    p'.secs = patch.secs ∧ p'.syms.length = patch.syms.length ∧
    ∀ (i : Nat) (s : FixSym), patch.syms[i]? = some s →
      let back := OfProgram patch s.sym ∧ Imported orig s.name ∧ ∃ r ∈ rs, r.sym = i
      (back → p'.syms[i]? = some s.undefined) ∧ (¬ back → p'.syms[i]? = some s) := by
  obtain ⟨ours, ho, h1, _⟩ := archFix_spec (copied_dot hdot) h
  subst h1
  refine ⟨rfl, by simp [marked], ?_⟩
  intro i s hs back
  have key : (((rs.map Rela.sym).reverse.contains i && hitSym (copiedName orig) ours s) = true) ↔ back := by
    unfold hitSym
    simp only [back, Bool.and_eq_true, List.contains_iff_mem, List.mem_reverse, List.mem_map, bne_iff_ne, ne_eq,
      Bool.not_eq_true', copiedName_iff, OfProgram, ← isOur_iff ho, Bool.not_eq_true]
    constructor
    · rintro ⟨h1, ⟨⟨⟨⟨a, b⟩, c⟩, d⟩, e⟩⟩
      exact ⟨⟨d, a, b, c⟩, e, h1⟩
    · rintro ⟨⟨d, a, b, c⟩, e, h1⟩
      exact ⟨h1, ⟨⟨⟨⟨a, b⟩, c⟩, d⟩, e⟩⟩
  constructor
  · intro hb
    show (marked _ _ _)[i]? = _
    rw [marked_get, hs, Option.map_some, if_pos (key.2 hb)]
  · intro hb
    show (marked _ _ _)[i]? = _
    rw [marked_get, hs, Option.map_some, if_neg (fun e => hb (key.1 e))]

/-- C74, variables of libraries on RISC-V: exactly the symbols that the linker defined in the patch as copies of library
variables and that a relocation refers to become references to the library again; the others are not changed. -/
theorem C74_imported_riscv {orig patch patch' : FixObj} {dyn : Option (List (DynRelOf RvDyn))}
    {rs rs' : List (Rela RvFixRel)} (h : rvFixup orig dyn patch rs = some (rs', patch'))
    (hdot : ∀ s ∈ patch.syms, s.sym.bind = .loc → s.name.head? = some 0x2e#8 → 0x40#8 ∉ s.name) :
    patch'.secs = patch.secs ∧ patch'.syms.length = patch.syms.length ∧
    ∀ (i : Nat) (s : FixSym), patch.syms[i]? = some s →
      let back := OfProgram patch s.sym ∧ Imported orig s.name ∧ ∃ r ∈ rs, r.sym = i
      (back → patch'.syms[i]? = some s.undefined) ∧ (¬ back → patch'.syms[i]? = some s) :=
  archFix_symbols hdot h

/-- C74, variables of libraries on LoongArch. -/
theorem C74_imported_loongarch {orig patch patch' : FixObj} {dyn : Option (List (DynRelOf LoongDyn))}
    {rs rs' : List (Rela LoongFixRel)} (h : loongFixup orig dyn patch rs = some (rs', patch'))
    (hdot : ∀ s ∈ patch.syms, s.sym.bind = .loc → s.name.head? = some 0x2e#8 → 0x40#8 ∉ s.name) :
    patch'.secs = patch.secs ∧ patch'.syms.length = patch.syms.length ∧
    ∀ (i : Nat) (s : FixSym), patch.syms[i]? = some s →
      let back := OfProgram patch s.sym ∧ Imported orig s.name ∧ ∃ r ∈ rs, r.sym = i
      (back → patch'.syms[i]? = some s.undefined) ∧ (¬ back → patch'.syms[i]? = some s) :=
  archFix_symbols hdot h

/-! ### Thread-local variables -/

theorem rv_slot {orig patch patch' : FixObj} {dyn : Option (List (DynRelOf RvDyn))} {rs rs' : List (Rela RvFixRel)}
    (h : rvFixup orig dyn patch rs = some (rs', patch'))
    (hdot : ∀ s ∈ patch.syms, s.sym.bind = .loc → s.name.head? = some 0x2e#8 → 0x40#8 ∉ s.name)
    {i : Nat} {r : Rela RvFixRel} (hr : rs[i]? = some r) {s : FixSym} (hs : patch.syms[r.sym]? = some s)
    (ht : s.sym.typ = .tls) : ∃ r', rs'[i]? = some r' ∧ rvUpdateTls orig.dynNames dyn s r = some r' := by
  obtain ⟨ours, _, _, _, h2⟩ := archFix_spec (copied_dot hdot) h
  obtain ⟨r', e1, e2⟩ := h2 i r hr
  exact ⟨r', e1, archFixOne_tls e2 hs ht⟩

/-- C74, offsets of thread-local variables read from memory on RISC-V (initial-exec model): the addend becomes the linked
address of the slot of the original program in which the loader puts the offset of the variable.  Programs for RISC-V
with 64 bits have no 32-bit relocations of this kind. -/
theorem C74_slot_riscv {orig patch patch' : FixObj} {dyn : Option (List (DynRelOf RvDyn))} {rs rs' : List (Rela RvFixRel)}
    (h : rvFixup orig dyn patch rs = some (rs', patch'))
    (hdot : ∀ s ∈ patch.syms, s.sym.bind = .loc → s.name.head? = some 0x2e#8 → 0x40#8 ∉ s.name)
    (h64 : ∀ all, dyn = some all → ∀ d ∈ all, d.typ ≠ .tprel32)
    {i : Nat} {r : Rela RvFixRel} (hr : rs[i]? = some r) {s : FixSym} (hs : patch.syms[r.sym]? = some s)
    (ht : s.sym.typ = .tls) (hty : r.typ = .run .tlsGotHi20) :
    ∃ r', rs'[i]? = some r' ∧ r'.offset = r.offset ∧ r'.typ = r.typ ∧ r'.sym = r.sym ∧
      OffsetSlotOf .tprel64 orig.dynNames dyn s r'.addend := by
  obtain ⟨r', e1, hu⟩ := rv_slot h hdot hr hs ht
  unfold rvUpdateTls at hu
  rw [hty] at hu
  simp only [Option.map_eq_some_iff] at hu
  obtain ⟨got, hgot, rfl⟩ := hu
  refine ⟨_, e1, rfl, hty.symm, rfl, ?_⟩
  show OffsetSlotOf .tprel64 orig.dynNames dyn s got
  have tp : ∀ all, dyn = some all → ∀ d ∈ all, rvIsTls d.typ = true → d.typ = .tprel64 := by
    intro all ha d hd hi
    have := h64 all ha d hd
    unfold rvIsTls at hi
    simp only [Bool.or_eq_true, beq_iff_eq] at hi
    rcases hi with e | e
    · exact absurd e this
    · exact e
  unfold rvGotEntry at hgot
  simp only at hgot
  split at hgot
  next hb =>
    rw [Option.bind_eq_some_iff] at hgot
    obtain ⟨l, hl, hg⟩ := hgot
    obtain ⟨all, ha, hsub⟩ := loadReladyn_sub hl
    obtain ⟨d, hd, d1, d2, d3, d4⟩ := gotByOffset_spec hg
    exact ⟨all, ha, d, hsub d hd, tp all ha d (hsub d hd) d1, d4, Or.inl ⟨hb, d2, d3⟩⟩
  next hb =>
  split at hgot
  next hg' =>
    rw [Option.bind_eq_some_iff] at hgot
    obtain ⟨l, hl, hg⟩ := hgot
    obtain ⟨all, ha, hsub⟩ := loadReladyn_sub hl
    obtain ⟨d, hd, d1, d2, d3, d4, d5⟩ := gotByName_spec hg
    refine ⟨all, ha, d, hsub d hd, tp all ha d (hsub d hd) d1, d5, Or.inr ⟨hg', ?_, d2, d3, d4⟩⟩
    by_contra hne
    exact hb (Or.inr hne)
  · simp at hgot

/-- C74, any other use of a thread-local variable is refused on RISC-V. -/
theorem C74_refused_riscv {orig patch : FixObj} {dyn : Option (List (DynRelOf RvDyn))} {rs : List (Rela RvFixRel)}
    (hdot : ∀ s ∈ patch.syms, s.sym.bind = .loc → s.name.head? = some 0x2e#8 → 0x40#8 ∉ s.name)
    {r : Rela RvFixRel} (hr : r ∈ rs) {s : FixSym} (hs : patch.syms[r.sym]? = some s) (ht : s.sym.typ = .tls)
    {t : RvRel} (hty : r.typ = .run t) (hne : t ≠ .tlsGotHi20) : rvFixup orig dyn patch rs = none := by
  cases h : rvFixup orig dyn patch rs with
  | none => rfl
  | some x =>
    obtain ⟨i, hi⟩ := List.getElem?_of_mem hr
    obtain ⟨r', _, hu⟩ := rv_slot (rs' := x.1) (patch' := x.2) h hdot hi hs ht
    unfold rvUpdateTls at hu
    rw [hty] at hu
    cases t <;> simp_all

/-- Finding the partner of a `PCREL_LO12` relocation that belongs to a thread-local access. -/
theorem rvHiValue_tls (load : BitVec 64) (syms : List Sym) (v : BitVec 64) (hi : Rela RvRel)
    (hoff : hi.offset = v.toNat) (htyp : hi.typ = .tlsGotHi20) (hdef : (symAt syms hi.sym).isUndef = false) :
    ∀ (l : List (Rela RvRel)), hi ∈ l →
      (∀ r ∈ l, r.offset = v.toNat → (r.typ = .pcrelHi20 ∨ r.typ = .tlsGotHi20) → r = hi) →
      rvHiValue load syms v l = hi.addend + load := by
  intro l
  induction l with
  | nil => intro h; simp at h
  | cons r rs ih =>
    intro hm hu
    unfold rvHiValue
    simp only
    by_cases h1 : r.offset = v.toNat ∧ r.typ = .pcrelHi20
    · have := hu r List.mem_cons_self h1.1 (Or.inl h1.2)
      subst this
      rw [h1.2] at htyp
      simp at htyp
    · rw [if_neg h1]
      by_cases h2 : r.offset = v.toNat ∧ r.typ = .tlsGotHi20
      · have := hu r List.mem_cons_self h2.1 (Or.inr h2.2)
        subst this
        rw [if_pos h2]
        have : ((syms.getD r.sym ⟨0, 0, 0, .notype, .loc⟩).isUndef) = false := hdef
        rw [this]
        simp
      · rw [if_neg h2]
        apply ih
        · rcases List.mem_cons.1 hm with e | e
          · subst e; exact absurd ⟨hoff, htyp⟩ h2
          · exact e
        · exact fun q hq => hu q (List.mem_cons_of_mem _ hq)

theorem disjoint_ne {α : Type} {off width : α → Nat} {rs : List α}
    (hdis : rs.Pairwise fun a b => off a + width a ≤ off b ∨ off b + width b ≤ off a) :
    ∀ a ∈ rs, ∀ b ∈ rs, a ≠ b → off a + width a ≤ off b ∨ off b + width b ≤ off a := by
  intro a ha b hb hab
  induction rs with
  | nil => simp at ha
  | cons c cs ih =>
    rw [List.pairwise_cons] at hdis
    rcases List.mem_cons.1 ha with rfl | ha'
    · rcases List.mem_cons.1 hb with rfl | hb'
      · exact absurd rfl hab
      · exact hdis.1 b hb'
    · rcases List.mem_cons.1 hb with rfl | hb'
      · exact (hdis.1 a ha').symm
      · exact ih hdis.2 ha' hb'

/-- An `auipc` relocated with `TLS_GOT_HI20` and a later I-type instruction relocated with `PCREL_LO12_I` against the
label of that `auipc`. -/
theorem rv_tls_pair (load : BitVec 64) (peek : BitVec 64 → Option (BitVec 64)) (jbase : BitVec 64)
    (sec : RelSec) (rs : List (Rela RvRel)) (st : RvState)
    (himg : sec.fileOff + sec.size ≤ st.img.length) (hsz : sec.size < 2 ^ 64)
    (hin : ∀ r ∈ rs, r.offset + rvWidth r ≤ sec.size)
    (hdis : rs.Pairwise fun a b => a.offset + rvWidth a ≤ b.offset ∨ b.offset + rvWidth b ≤ a.offset)
    (hslot : ∀ r ∈ rs, rvIsSlot st.syms r = false)
    (hok : (rvRelocate load peek jbase sec rs st).2 = true)
    (i j : Nat) (hi lo : Rela RvRel) (hij : i < j) (h_i : rs[i]? = some hi) (h_j : rs[j]? = some lo)
    (hti : hi.typ = .tlsGotHi20) (htj : lo.typ = .pcrelLo12I)
    (hdef : (symAt st.syms hi.sym).isUndef = false) (htls : (symAt st.syms hi.sym).typ = .tls)
    (hlabel : (symAt st.syms lo.sym).value = sec.addr + BitVec.ofNat 64 hi.offset)
    (rd : BitVec 5) (v : BitVec 64) (rest : BitVec 20) (imm : BitVec 12)
    (hold1 : (field32 (bytesAt st.img (sec.fileOff + hi.offset) 4)).bind
      (rvAuipc (sec.addr + BitVec.ofNat 64 hi.offset)) = some (rd, v))
    (hold2 : (field32 (bytesAt st.img (sec.fileOff + lo.offset) 4)).map rvImmI = some (rest, imm))
    (hreach : -(2 ^ 31 : Int) ≤ (hi.addend + load - (sec.addr + BitVec.ofNat 64 hi.offset)).toInt ∧
      (hi.addend + load - (sec.addr + BitVec.ofNat 64 hi.offset)).toInt < 2 ^ 31 - 2 ^ 11) :
    let st' := (rvRelocate load peek jbase sec rs st).1
    ∃ v' imm', (field32 (bytesAt st'.img (sec.fileOff + hi.offset) 4)).bind
        (rvAuipc (sec.addr + BitVec.ofNat 64 hi.offset)) = some (rd, v') ∧
      (field32 (bytesAt st'.img (sec.fileOff + lo.offset) 4)).map rvImmI = some (rest, imm') ∧
      v' + imm'.signExtend 64 = hi.addend + load := by
  intro st'
  obtain ⟨_, _, h2, _⟩ := rv_loop_spec load peek jbase sec rs st himg hin hdis hslot hok
  obtain ⟨b1, ha1, hb1⟩ := h2 i hi h_i
  obtain ⟨b2, ha2, hb2⟩ := h2 j lo h_j
  have hmi : hi ∈ rs := List.mem_of_getElem? h_i
  have hoffi : hi.offset + 4 ≤ sec.size := by
    have := hin hi hmi
    simp only [rvWidth, hti] at this
    exact this
  have hv : ((symAt st.syms lo.sym).value - sec.addr) = BitVec.ofNat 64 hi.offset := by
    rw [hlabel, BitVec.add_comm, BitVec.add_sub_cancel]
  have hfind : rvHiValue load st.syms ((symAt st.syms lo.sym).value - sec.addr) (rs.take j).reverse =
      hi.addend + load := by
    rw [hv]
    have hn : (BitVec.ofNat 64 hi.offset).toNat = hi.offset := by
      rw [BitVec.toNat_ofNat]; exact Nat.mod_eq_of_lt (by omega)
    apply rvHiValue_tls load st.syms _ hi (by rw [hn]) hti hdef
    · rw [List.mem_reverse, List.mem_take_iff_getElem]
      obtain ⟨hlt, e⟩ := List.getElem?_eq_some_iff.1 h_i
      exact ⟨i, by omega, e⟩
    · intro r hr ho ht
      rw [hn] at ho
      rw [List.mem_reverse] at hr
      have hr' := List.mem_of_mem_take hr
      by_contra hne
      have hw : rvWidth r = 4 := by rcases ht with h | h <;> simp [rvWidth, h]
      have hw2 : rvWidth hi = 4 := by simp [rvWidth, hti]
      have := disjoint_ne (off := Rela.offset) (width := rvWidth) hdis r hr' hi hmi hne
      omega
  unfold rvApply at ha1 ha2
  simp only [hti] at ha1
  simp only [htj, hfind] at ha2
  have hd : (!(symAt st.syms hi.sym).isUndef && decide ((symAt st.syms hi.sym).typ = .tls)) = true := by
    rw [hdef, htls]; rfl
  simp only [hd, if_true] at ha1
  generalize hp : sec.addr + BitVec.ofNat 64 hi.offset = p at *
  generalize hS : hi.addend + load = S at *
  split at ha2
  · contradiction
  cases ha1
  cases ha2
  rw [le32_length] at hb1 hb2
  have e1 : bytesAt st'.img (sec.fileOff + hi.offset) 4 = _ := hb1
  have e2 : bytesAt st'.img (sec.fileOff + lo.offset) 4 = _ := hb2
  rw [e1, e2, field32_le32, field32_le32, Option.bind_some, Option.map_some]
  have hw1 := bind_field hold1
  unfold bytesAt at hw1
  rw [ld32_take _ 4 (by omega)] at hw1
  obtain ⟨v', hv1, hv2⟩ := rv_auipc_ok _ p S v rd hw1 hreach.1 hreach.2
  refine ⟨v', (S - p).extractLsb' 0 12, hv1, ?_, hv2⟩
  rw [rv_immI_ok, hlabel]
  cases hf2 : field32 (bytesAt st.img (sec.fileOff + lo.offset) 4) with
  | none => rw [hf2] at hold2; simp at hold2
  | some w =>
    rw [hf2] at hold2
    have := field32_some hf2
    unfold bytesAt at this
    rw [ld32_take _ 4 (by omega)] at this
    simp only [Option.map_some, Option.some.injEq, rvImmI, Prod.mk.injEq] at hold2
    rw [this, hold2.1]

/-- The rewritten relocations `rs` of a section linked at `shAddr` were applied successfully to the state `st`, in whose
image the section is `sec`: the fields lie inside the section and do not overlap, and none is a library variable with its
own slot. -/
structure RvFixApplied (shAddr : Nat) (rs : List (Rela RvFixRel)) (load : BitVec 64)
    (peek : BitVec 64 → Option (BitVec 64)) (jbase : BitVec 64) (sec : RelSec) (st : RvState) : Prop where
  fits : sec.fileOff + sec.size ≤ st.img.length
  size : sec.size < 2 ^ 64
  inside : ∀ r ∈ rs, shAddr ≤ r.offset ∧ r.offset - shAddr + rvWidth (rvSectionRelative shAddr r) ≤ sec.size
  disjoint : (rs.map (rvSectionRelative shAddr)).Pairwise fun a b =>
    a.offset + rvWidth a ≤ b.offset ∨ b.offset + rvWidth b ≤ a.offset
  noSlots : ∀ r ∈ rs, rvIsSlot st.syms (rvSectionRelative shAddr r) = false
  ok : (rvRelocate load peek jbase sec (rs.map (rvSectionRelative shAddr)) st).2 = true

/-- C74, reading the offset of a thread-local variable of the program on RISC-V: when the relocations have been rewritten
and applied, the pair `auipc`, `ld` of such an access reads, with the same registers, from the slot of the running program
in which the loader put the offset of the variable.  Not for variables of libraries, where it is false
(`C74_violated_library_tls_riscv`), and only if the slot is in reach, which is not checked
(`C74_violated_reach_riscv`). -/
theorem C74_read_riscv_partial {orig patch patch' : FixObj} {dyn : Option (List (DynRelOf RvDyn))}
    {rs rs' : List (Rela RvFixRel)} (h : rvFixup orig dyn patch rs = some (rs', patch')) (hl : LinkedObj patch)
    (hdot : ∀ s ∈ patch.syms, s.sym.bind = .loc → s.name.head? = some 0x2e#8 → 0x40#8 ∉ s.name)
    (h64 : ∀ all, dyn = some all → ∀ d ∈ all, d.typ ≠ .tprel32)
    {shAddr : Nat} {load : BitVec 64} {peek : BitVec 64 → Option (BitVec 64)} {jbase : BitVec 64} {sec : RelSec}
    {st : RvState} (A : RvFixApplied shAddr rs' load peek jbase sec st)
    {i j : Nat} (hij : i < j) {hi lo lo' : Rela RvFixRel} (h_i : rs[i]? = some hi) (h_j : rs[j]? = some lo)
    (h_j' : rs'[j]? = some lo') (hti : hi.typ = .run .tlsGotHi20) (htj : lo.typ = .run .pcrelLo12I)
    {s : FixSym} (hs : patch.syms[hi.sym]? = some s) (ht : s.sym.typ = .tls)
    {l : FixSym} (hlo : patch.syms[lo.sym]? = some l) (hlt : l.sym.typ ≠ .tls)
    (hdef : (symAt st.syms hi.sym).isUndef = false) (htls : (symAt st.syms hi.sym).typ = .tls)
    (hlabel : (symAt st.syms lo'.sym).value = sec.addr + BitVec.ofNat 64 (hi.offset - shAddr))
    {rd : BitVec 5} {v : BitVec 64} {rest : BitVec 20} {imm : BitVec 12}
    (hold1 : (field32 (bytesAt st.img (sec.fileOff + (hi.offset - shAddr)) 4)).bind
      (rvAuipc (sec.addr + BitVec.ofNat 64 (hi.offset - shAddr))) = some (rd, v))
    (hold2 : (field32 (bytesAt st.img (sec.fileOff + (lo.offset - shAddr)) 4)).map rvImmI = some (rest, imm))
    (hreach : ∀ slot, OffsetSlotOf .tprel64 orig.dynNames dyn s slot →
      -(2 ^ 31 : Int) ≤ (load + slot - (sec.addr + BitVec.ofNat 64 (hi.offset - shAddr))).toInt ∧
      (load + slot - (sec.addr + BitVec.ofNat 64 (hi.offset - shAddr))).toInt < 2 ^ 31 - 2 ^ 11) :
    ∃ slot, OffsetSlotOf .tprel64 orig.dynNames dyn s slot ∧
    ∃ v' imm',
      (field32 (bytesAt (rvRelocate load peek jbase sec (rs'.map (rvSectionRelative shAddr)) st).1.img
        (sec.fileOff + (hi.offset - shAddr)) 4)).bind
        (rvAuipc (sec.addr + BitVec.ofNat 64 (hi.offset - shAddr))) = some (rd, v') ∧
      (field32 (bytesAt (rvRelocate load peek jbase sec (rs'.map (rvSectionRelative shAddr)) st).1.img
        (sec.fileOff + (lo.offset - shAddr)) 4)).map rvImmI = some (rest, imm') ∧
      v' + imm'.signExtend 64 = load + slot := by
  obtain ⟨r', e1, o1, o2, o3, hsl⟩ := C74_slot_riscv h hdot h64 h_i hs ht hti
  refine ⟨r'.addend, hsl, ?_⟩
  obtain ⟨_, hT⟩ := C74_same_target_riscv h hl hdot
  obtain ⟨lo2, f1, f2, f3, _⟩ := hT j lo l h_j hlo hlt
  rw [h_j'] at f1
  cases f1
  have m_i : (rs'.map (rvSectionRelative shAddr))[i]? = some (rvSectionRelative shAddr r') := by
    rw [List.getElem?_map, e1]; rfl
  have m_j : (rs'.map (rvSectionRelative shAddr))[j]? = some (rvSectionRelative shAddr lo') := by
    rw [List.getElem?_map, h_j']; rfl
  have b1 : (rvSectionRelative shAddr r').offset = hi.offset - shAddr := by
    show r'.offset - shAddr = _
    rw [o1]
  have b2 : (rvSectionRelative shAddr lo').offset = lo.offset - shAddr := by
    show lo'.offset - shAddr = _
    rw [f2]
  have key := rv_tls_pair load peek jbase sec (rs'.map (rvSectionRelative shAddr)) st A.fits A.size
    (by
      intro q hq
      obtain ⟨q', hq', rfl⟩ := List.mem_map.1 hq
      exact (A.inside q' hq').2) A.disjoint
    (by
      intro q hq
      obtain ⟨q', hq', rfl⟩ := List.mem_map.1 hq
      exact A.noSlots q' hq') A.ok i j _ _ hij m_i m_j
    (by show r'.typ.applied = _; rw [o2, hti]; rfl) (by show lo'.typ.applied = _; rw [f3, htj]; rfl)
    (by show (symAt st.syms r'.sym).isUndef = false; rw [o3]; exact hdef)
    (by show (symAt st.syms r'.sym).typ = .tls; rw [o3]; exact htls)
    (by rw [b1]; exact hlabel) rd v rest imm (by rw [b1]; exact hold1) (by rw [b2]; exact hold2)
    (by
      rw [b1]
      have := hreach _ hsl
      rw [BitVec.add_comm load] at this
      exact this)
  rw [b1, b2] at key
  obtain ⟨v', imm', k1, k2, k3⟩ := key
  refine ⟨v', imm', k1, k2, ?_⟩
  rw [k3]
  exact BitVec.add_comm _ _

/-! ### LoongArch -/

theorem loong_tls {orig patch patch' : FixObj} {dyn : Option (List (DynRelOf LoongDyn))} {rs rs' : List (Rela LoongFixRel)}
    (h : loongFixup orig dyn patch rs = some (rs', patch'))
    (hdot : ∀ s ∈ patch.syms, s.sym.bind = .loc → s.name.head? = some 0x2e#8 → 0x40#8 ∉ s.name)
    {i : Nat} {r : Rela LoongFixRel} (hr : rs[i]? = some r) {s : FixSym} (hs : patch.syms[r.sym]? = some s)
    (ht : s.sym.typ = .tls) : ∃ r', rs'[i]? = some r' ∧ loongUpdateTls orig dyn s r = some r' := by
  obtain ⟨ours, _, _, _, h2⟩ := archFix_spec (copied_dot hdot) h
  obtain ⟨r', e1, e2⟩ := h2 i r hr
  exact ⟨r', e1, archFixOne_tls e2 hs ht⟩

/-- C74, offsets of thread-local variables in the code on LoongArch (local-exec model), lower part: it is left as linked
only if the first symbol of that name in the original is a thread-local variable with the same offset from the thread
pointer. -/
theorem C74_offset_loongarch {orig patch patch' : FixObj} {dyn : Option (List (DynRelOf LoongDyn))}
    {rs rs' : List (Rela LoongFixRel)} (h : loongFixup orig dyn patch rs = some (rs', patch'))
    (hdot : ∀ s ∈ patch.syms, s.sym.bind = .loc → s.name.head? = some 0x2e#8 → 0x40#8 ∉ s.name)
    {i : Nat} {r : Rela LoongFixRel} (hr : rs[i]? = some r) {s : FixSym} (hs : patch.syms[r.sym]? = some s)
    (ht : s.sym.typ = .tls) (hty : r.typ = .leLo12 ∨ r.typ = .leLo12R) :
    (∃ r', rs'[i]? = some r' ∧ r'.offset = r.offset ∧ r'.typ = .run .none) ∧
    ∃ o, orig.syms.find? (fun o => o.name == s.name) = some o ∧ o.sym.typ = .tls ∧ o.sym.shndx ≠ 0 ∧
      tpOffset1 o.sym = tpOffset1 s.sym := by
  obtain ⟨r', e1, hu⟩ := loong_tls h hdot hr hs ht
  have hu' : (match origTlsLoc orig s.name with
    | none => none
    | some off => if off ≠ s.sym.value then none else some ({ r with sym := 0, typ := .run .none } : Rela LoongFixRel)) = some r' := by
    unfold loongUpdateTls at hu
    rcases hty with e | e <;> rw [e] at hu <;> exact hu
  split at hu'
  · simp at hu'
  next off ho =>
  split at hu'
  · simp at hu'
  next hne =>
  simp only [Option.some.injEq] at hu'
  refine ⟨⟨r', e1, by rw [← hu'], by rw [← hu']⟩, ?_⟩
  unfold origTlsLoc at ho
  split at ho
  · simp at ho
  next o hfo =>
  split at ho
  · simp at ho
  next h0 =>
  split at ho
  · simp at ho
  next h1 =>
  have h1' : o.sym.typ = .tls := by
    by_contra hc; exact h1 hc
  refine ⟨o, hfo, h1', h0, ?_⟩
  unfold symOffsetInSection at ho
  rw [if_pos h1'] at ho
  simp only [Option.some.injEq] at ho
  have : off = s.sym.value := by
    by_contra hc; exact hne hc
  unfold tpOffset1
  rw [ho, this]

/-- C74 is false for every access of the local-exec model on LoongArch: the upper part of the offset (`LE_HI20`, or
`LE_HI20_R` and `LE_ADD_R`) is refused, whatever the original, so that a patch with such an access cannot be built. -/
theorem C74_violated_local_exec_loongarch {orig patch : FixObj} {dyn : Option (List (DynRelOf LoongDyn))}
    {rs : List (Rela LoongFixRel)}
    (hdot : ∀ s ∈ patch.syms, s.sym.bind = .loc → s.name.head? = some 0x2e#8 → 0x40#8 ∉ s.name)
    {r : Rela LoongFixRel} (hr : r ∈ rs) {s : FixSym} (hs : patch.syms[r.sym]? = some s) (ht : s.sym.typ = .tls)
    (hty : r.typ = .leHi20 ∨ r.typ = .leHi20R ∨ r.typ = .leAddR) : loongFixup orig dyn patch rs = none := by
  cases h : loongFixup orig dyn patch rs with
  | none => rfl
  | some x =>
    obtain ⟨i, hi⟩ := List.getElem?_of_mem hr
    obtain ⟨r', _, hu⟩ := loong_tls (rs' := x.1) (patch' := x.2) h hdot hi hs ht
    unfold loongUpdateTls at hu
    rcases hty with e | e | e <;> rw [e] at hu <;> simp at hu

/-- C74, any use of a thread-local variable other than the local-exec and initial-exec models is refused on LoongArch. -/
theorem C74_refused_loongarch {orig patch : FixObj} {dyn : Option (List (DynRelOf LoongDyn))} {rs : List (Rela LoongFixRel)}
    (hdot : ∀ s ∈ patch.syms, s.sym.bind = .loc → s.name.head? = some 0x2e#8 → 0x40#8 ∉ s.name)
    {r : Rela LoongFixRel} (hr : r ∈ rs) {s : FixSym} (hs : patch.syms[r.sym]? = some s) (ht : s.sym.typ = .tls)
    {t : LoongRel} (hty : r.typ = .run t)
    (hne : t ≠ .tlsIePcHi20 ∧ t ≠ .tlsIePcLo12 ∧ t ≠ .tlsIeHi20 ∧ t ≠ .tlsIeLo12) :
    loongFixup orig dyn patch rs = none := by
  cases h : loongFixup orig dyn patch rs with
  | none => rfl
  | some x =>
    obtain ⟨i, hi⟩ := List.getElem?_of_mem hr
    obtain ⟨r', _, hu⟩ := loong_tls (rs' := x.1) (patch' := x.2) h hdot hi hs ht
    unfold loongUpdateTls at hu
    rw [hty] at hu
    obtain ⟨h1, h2, h3, h4⟩ := hne
    cases t <;> simp_all

theorem gotByOffset_none {D : Type} {sel : D → Bool} {off : BitVec 64} : ∀ {l : List (DynRelOf D)},
    (∀ d ∈ l, sel d.typ = false) → gotByOffset sel off l = none := by
  intro l
  induction l with
  | nil => intro _; rfl
  | cons d ds ih =>
    intro h
    unfold gotByOffset
    rw [if_pos (by simp [h d List.mem_cons_self]), ih (fun x hx => h x (List.mem_cons_of_mem _ hx))]

theorem gotByName_none {D : Type} {sel : D → Bool} {names : List CStr} {name : CStr} : ∀ {l : List (DynRelOf D)},
    (∀ d ∈ l, sel d.typ = false) → gotByName sel names name l = none := by
  intro l
  induction l with
  | nil => intro _; rfl
  | cons d ds ih =>
    intro h
    unfold gotByName
    rw [if_pos (by simp [h d List.mem_cons_self]), ih (fun x hx => h x (List.mem_cons_of_mem _ hx))]

/-- C74 is false for every access of the initial-exec model on LoongArch.  The dynamic relocations are searched for types
that only occur in relocatable objects.  Whatever the original program, the slot of a variable of the program is not found
and the address 0 is used in its place, without an error. -/
theorem C74_violated_slot_loongarch {orig patch patch' : FixObj} {dyn : Option (List (DynRelOf LoongDyn))}
    {rs rs' : List (Rela LoongFixRel)} (h : loongFixup orig dyn patch rs = some (rs', patch'))
    (hdot : ∀ s ∈ patch.syms, s.sym.bind = .loc → s.name.head? = some 0x2e#8 → 0x40#8 ∉ s.name)
    (hdyn : ∀ all, dyn = some all → ∀ d ∈ all, d.typ ≠ .ieHi20 ∧ d.typ ≠ .ieLo12)
    {i : Nat} {r : Rela LoongFixRel} (hr : rs[i]? = some r) {s : FixSym} (hs : patch.syms[r.sym]? = some s)
    (ht : s.sym.typ = .tls)
    (hty : r.typ = .run .tlsIePcHi20 ∨ r.typ = .run .tlsIePcLo12 ∨ r.typ = .run .tlsIeHi20 ∨ r.typ = .run .tlsIeLo12) :
    ∃ r', rs'[i]? = some r' ∧ r'.typ = r.typ ∧ r'.sym = r.sym ∧ r'.addend = 0#64 := by
  obtain ⟨r', e1, hu⟩ := loong_tls h hdot hr hs ht
  have hu' : (loongGotEntry orig.dynNames dyn s).map (fun got => ({ r with addend := got } : Rela LoongFixRel)) = some r' := by
    unfold loongUpdateTls at hu
    rcases hty with e | e | e | e <;> rw [e] at hu ⊢ <;> exact hu
  rw [Option.map_eq_some_iff] at hu'
  obtain ⟨got, hgot, rfl⟩ := hu'
  refine ⟨_, e1, rfl, rfl, ?_⟩
  show got = 0#64
  have nosel : ∀ l, loadReladyn loongIsTls dyn = some l → ∀ d ∈ l, loongSel d.typ = false := by
    intro l hl d hd
    obtain ⟨all, ha, hsub⟩ := loadReladyn_sub hl
    have := hdyn all ha d (hsub d hd)
    simp [loongSel, this.1, this.2]
  unfold loongGotEntry at hgot
  simp only at hgot
  split at hgot
  · unfold loongGotByOffset at hgot
    rw [Option.map_eq_some_iff] at hgot
    obtain ⟨l, hl, hg⟩ := hgot
    rw [gotByOffset_none (nosel l hl)] at hg
    exact hg.symm
  split at hgot
  · rw [Option.bind_eq_some_iff] at hgot
    obtain ⟨l, hl, hg⟩ := hgot
    rw [gotByName_none (nosel l hl)] at hg
    simp at hg
  · simp at hgot

/-- C74, on LoongArch an access of the initial-exec model is refused where the original has no slots of thread-local variables, and for
variables of other libraries always. -/
theorem C74_refused_slot_loongarch {orig patch : FixObj} {dyn : Option (List (DynRelOf LoongDyn))} {rs : List (Rela LoongFixRel)}
    (hdot : ∀ s ∈ patch.syms, s.sym.bind = .loc → s.name.head? = some 0x2e#8 → 0x40#8 ∉ s.name)
    (hdyn : ∀ all, dyn = some all → ∀ d ∈ all, d.typ ≠ .ieHi20 ∧ d.typ ≠ .ieLo12)
    {r : Rela LoongFixRel} (hr : r ∈ rs) {s : FixSym} (hs : patch.syms[r.sym]? = some s) (ht : s.sym.typ = .tls)
    (hty : r.typ = .run .tlsIePcHi20 ∨ r.typ = .run .tlsIePcLo12 ∨ r.typ = .run .tlsIeHi20 ∨ r.typ = .run .tlsIeLo12)
    (hno : (∀ all, dyn = some all → ∀ d ∈ all, d.typ ≠ .tprel32 ∧ d.typ ≠ .tprel64) ∨ s.sym.bind ≠ .loc ∧ s.sym.shndx = 0) :
    loongFixup orig dyn patch rs = none := by
  cases h : loongFixup orig dyn patch rs with
  | none => rfl
  | some x =>
    exfalso
    obtain ⟨i, hi⟩ := List.getElem?_of_mem hr
    obtain ⟨r', _, hu⟩ := loong_tls (rs' := x.1) (patch' := x.2) h hdot hi hs ht
    have hu' : (loongGotEntry orig.dynNames dyn s).map (fun got => ({ r with addend := got } : Rela LoongFixRel)) = some r' := by
      unfold loongUpdateTls at hu
      rcases hty with e | e | e | e <;> rw [e] at hu ⊢ <;> exact hu
    rw [Option.map_eq_some_iff] at hu'
    obtain ⟨got, hgot, rfl⟩ := hu'
    have nosel : ∀ l, loadReladyn loongIsTls dyn = some l → ∀ d ∈ l, loongSel d.typ = false := by
      intro l hl d hd
      obtain ⟨all, ha, hsub⟩ := loadReladyn_sub hl
      have := hdyn all ha d (hsub d hd)
      simp [loongSel, this.1, this.2]
    unfold loongGotEntry at hgot
    simp only at hgot
    rcases hno with hno | ⟨h1, h2⟩
    · have hn : loadReladyn loongIsTls dyn = none := by
        cases hd : dyn with
        | none => rfl
        | some all =>
          have hall := hno all hd
          have : all.dropWhile (fun d => !loongIsTls d.typ) = [] := by
            clear hno hd
            induction all with
            | nil => rfl
            | cons d ds ih =>
              have h1 := hall d List.mem_cons_self
              rw [List.dropWhile_cons_of_pos (by simp [loongIsTls, h1.1, h1.2])]
              exact ih (fun e he => hall e (List.mem_cons_of_mem _ he))
          simp [loadReladyn, this]
      simp only [loongGotByOffset, hn, Option.map_none, Option.bind_none] at hgot
      split at hgot
      · cases hgot
      · split at hgot <;> cases hgot
    · rw [if_neg (by simp [h1, h2])] at hgot
      split at hgot
      · rw [Option.bind_eq_some_iff] at hgot
        obtain ⟨l, hl, hg⟩ := hgot
        rw [gotByName_none (nosel l hl)] at hg
        simp at hg
      · cases hgot

/-! ### AArch64 -/

theorem a64_tls {orig patch patch' : FixObj} {shAddr : Nat} {text : List Byte} {rs rs' : List (Rela A64Rel)}
    (h : a64Fixup orig patch shAddr text rs = some (rs', patch'))
    {i : Nat} {r : Rela A64Rel} (hr : rs[i]? = some r) {s : FixSym} (hs : patch.syms[r.sym]? = some s)
    (ht : s.sym.typ = .tls) : ∃ r', rs'[i]? = some r' ∧ a64UpdateTls shAddr text s r = some r' := by
  obtain ⟨ours, _, _, _, h2⟩ := archFix_spec (by simp) h
  obtain ⟨r', e1, e2⟩ := h2 i r hr
  exact ⟨r', e1, archFixOne_tls e2 hs ht⟩

/-- C74, any use of a thread-local variable other than through a slot is refused on AArch64, for global variables. -/
theorem C74_refused_aarch64 {orig patch : FixObj} {shAddr : Nat} {text : List Byte} {rs : List (Rela A64Rel)}
    {r : Rela A64Rel} (hr : r ∈ rs) {s : FixSym} (hs : patch.syms[r.sym]? = some s) (ht : s.sym.typ = .tls)
    (hb : s.sym.bind ≠ .loc) (h1 : r.typ ≠ .tlsieAdrPage21) (h2 : r.typ ≠ .tlsieLd64Lo12) :
    a64Fixup orig patch shAddr text rs = none := by
  cases h : a64Fixup orig patch shAddr text rs with
  | none => rfl
  | some x =>
    obtain ⟨i, hi⟩ := List.getElem?_of_mem hr
    obtain ⟨r', _, hu⟩ := a64_tls (rs' := x.1) (patch' := x.2) h hi hs ht
    unfold a64UpdateTls at hu
    rw [if_neg hb] at hu
    cases e : r.typ <;> rw [e] at hu <;> simp_all

theorem signExtend_low {w : Nat} (y : BitVec w) (h1 : 32 ≤ w) : (y.signExtend 64).setWidth 32 = y.setWidth 32 := by
  ext i hi
  simp only [BitVec.getElem_setWidth, BitVec.getLsbD_signExtend]
  simp [show i < 64 by omega, show i < w by omega]

theorem adrp_imm (w : BitVec 32) :
    (((((w.extractLsb' 5 19).setWidth 21 <<< 2) ||| (w.extractLsb' 29 2).setWidth 21 : BitVec 21).setWidth 33 <<< 12).setWidth 32
      : BitVec 32) = ((((w >>> 5) &&& 0x7ffff#32) <<< 2) ||| ((w >>> 29) &&& 0x3#32)) <<< 12 := by
  bv_bits []

theorem setWidth_page (a : BitVec 64) : (page a).setWidth 32 = (a &&& 0xfffff000#64).setWidth 32 := by
  unfold page
  bv_bits []

theorem page_eq_iff (a b : Nat) (h : a / 4096 = b / 4096) : page (BitVec.ofNat 64 a) = page (BitVec.ofNat 64 b) := by
  unfold page
  rw [clear_low12, clear_low12]
  apply BitVec.eq_of_toNat_eq
  have h1 := and_fff (BitVec.ofNat 64 a)
  have h2 := and_fff (BitVec.ofNat 64 b)
  rw [BitVec.toNat_sub, BitVec.toNat_sub, h1, h2]
  simp only [BitVec.toNat_ofNat]
  omega

theorem shl12_low (y : BitVec 21) : ((y.setWidth 33 <<< 12).signExtend 64).toNat % 4096 = 0 := by
  rw [← and_fff]
  have : (y.setWidth 33 <<< 12).signExtend 64 &&& 0xfff#64 = 0#64 := by
    ext i hi
    simp only [BitVec.getElem_and, BitVec.getElem_zero]
    by_cases h : i < 12
    · have : ((y.setWidth 33 <<< 12).signExtend 64)[i] = false := by
        rw [BitVec.getElem_signExtend, dif_pos (by omega), BitVec.getElem_shiftLeft]
        simp [h]
      rw [this, Bool.false_and]
    · have : (0xfff#64)[i] = false := by
        have : ∀ j < 64, 12 ≤ j → (0xfff#64).getLsbD j = false := by decide
        rw [← BitVec.getLsbD_eq_getElem]
        exact this i hi (by omega)
      rw [this, Bool.and_false]
  rw [this]; rfl

theorem page_mod (a : BitVec 64) : (page a).toNat % 4096 = 0 := by
  unfold page
  rw [clear_low12, BitVec.toNat_sub, and_fff]
  omega

theorem a64GotPage_eq {off shAddr : Nat} {w : BitVec 32} {rd : BitVec 5} {pg : BitVec 64}
    (h : a64Adrp (BitVec.ofNat 64 off) w = some (rd, pg)) (hp : off / 4096 = shAddr / 4096) (h32 : pg.toNat < 2 ^ 32) :
    (a64GotPage (BitVec.ofNat 64 shAddr) w).setWidth 64 = pg := by
  unfold a64Adrp at h
  split at h
  · simp only [Option.some.injEq, Prod.mk.injEq] at h
    have e : a64GotPage (BitVec.ofNat 64 shAddr) w = pg.setWidth 32 := by
      rw [← h.2, BitVec.setWidth_add _ _ (by decide), signExtend_low _ (by decide), adrp_imm, page_eq_iff _ _ hp,
        setWidth_page, BitVec.add_comm]
      rfl
    rw [e]
    apply BitVec.eq_of_toNat_eq
    rw [BitVec.toNat_setWidth, BitVec.toNat_setWidth]
    omega
  · simp at h

/-- The rewritten relocations `rs` of a section with the code `text`, linked at `shAddr`, were applied successfully in the
image `img`, in which the section is `sec`: the fields lie inside the section and do not overlap, and no local
thread-local variable is used (`C26_violated_local_tls`). -/
structure A64FixApplied (shAddr : Nat) (rs : List (Rela A64Rel)) (text : List Byte) (load : BitVec 64) (sec : RelSec)
    (syms : List Sym) (img : List Byte) : Prop where
  code : ∀ k < sec.size, img[sec.fileOff + k]? = text[k]?
  size : text.length = sec.size
  fits : sec.fileOff + sec.size ≤ img.length
  inside : ∀ r ∈ rs, shAddr ≤ r.offset ∧ r.offset - shAddr + a64Width r ≤ sec.size
  disjoint : (rs.map (a64SectionRelative shAddr)).Pairwise fun a b =>
    a.offset + a64Width a ≤ b.offset ∨ b.offset + a64Width b ≤ a.offset
  global : ∀ r ∈ rs, ¬ ((symAt syms r.sym).typ = .tls ∧ (symAt syms r.sym).bind = .loc)
  ok : (a64Relocate load sec syms (rs.map (a64SectionRelative shAddr)) img).2 = true

theorem bytesAt_congr2 {a b : List Byte} {o o' n : Nat} (h : ∀ k < n, a[o + k]? = b[o' + k]?) :
    bytesAt a o n = bytesAt b o' n := by
  apply List.ext_getElem?
  intro k
  unfold bytesAt
  rw [List.getElem?_take, List.getElem?_take]
  split
  next hk => rw [List.getElem?_drop, List.getElem?_drop, h k hk]
  · rfl

/-- C74, reading the offset of a global thread-local variable on AArch64: when the relocations have been rewritten and
applied, the pair `adrp`, `ldr` that reads the slot at linked address `slot` in the linked patch reads, with the same
registers, the address `load + slot`.  Missing: the instruction must be in the first page of its section and the slot
below 4 GiB (`C74_violated_page_aarch64`), and nothing makes sure that the slot is the one of the variable in the original
(`C74_violated_slot_aarch64`). -/
theorem C74_read_aarch64_partial {orig patch patch' : FixObj} {shAddr : Nat} {text : List Byte} {rs rs' : List (Rela A64Rel)}
    (h : a64Fixup orig patch shAddr text rs = some (rs', patch'))
    {load : BitVec 64} {sec : RelSec} {syms : List Sym} {img : List Byte}
    (A : A64FixApplied shAddr rs' text load sec syms img)
    {i : Nat} {r : Rela A64Rel} (hr : rs[i]? = some r) (hty : r.typ = .tlsieAdrPage21)
    {s : FixSym} (hs : patch.syms[r.sym]? = some s) (ht : s.sym.typ = .tls) (hb : s.sym.bind ≠ .loc)
    (hrun : (symAt syms r.sym).typ = .tls) {rd : BitVec 5} {pg slot : BitVec 64} {m : A64Mem} {q : Nat}
    (hadrp : (field32 (bytesAt text (r.offset - shAddr) 4)).bind (a64Adrp (BitVec.ofNat 64 r.offset)) = some (rd, pg))
    (hldr : (field32 (bytesAt text q 4)).bind a64LdSt = some m) (hslot : pg + m.offset = slot)
    (hq : q + 4 ≤ sec.size)
    (hfree : ∀ r' ∈ rs', r'.offset - shAddr + a64Width r' ≤ q ∨ q + 4 ≤ r'.offset - shAddr)
    (hpage : r.offset / 4096 = shAddr / 4096) (h32 : pg.toNat < 2 ^ 32) (hload : load.toNat % 4096 = 0)
    (hreach : A64Use.adrp.canDenote (sec.addr + BitVec.ofNat 64 (r.offset - shAddr)) (load + pg) []) :
    ∃ v,
      (field32 (bytesAt (a64Relocate load sec syms (rs'.map (a64SectionRelative shAddr)) img).1
        (sec.fileOff + (r.offset - shAddr)) 4)).bind
        (a64Adrp (sec.addr + BitVec.ofNat 64 (r.offset - shAddr))) = some (rd, v) ∧
      (field32 (bytesAt (a64Relocate load sec syms (rs'.map (a64SectionRelative shAddr)) img).1
        (sec.fileOff + q) 4)).bind a64LdSt = some m ∧
      v + m.offset = load + slot := by
  obtain ⟨r', e1, hu⟩ := a64_tls h hr hs ht
  unfold a64UpdateTls at hu
  rw [if_neg hb, hty] at hu
  simp only at hu
  split at hu
  · simp at hu
  next hin =>
  simp only [Option.some.injEq] at hu
  have hw := bind_field hadrp
  unfold bytesAt at hw
  rw [ld32_take _ 4 (by omega)] at hw
  rw [a64GotPage_eq hw hpage h32] at hu
  subst hu
  have hmem := List.mem_of_getElem? e1
  have hin' := A.inside _ hmem
  have hwd : ∀ x : Rela A64Rel, a64Width (a64SectionRelative shAddr x) = a64Width x := fun _ => rfl
  obtain ⟨f1, f2⟩ := C26_instructions_denote_partial load sec syms (rs'.map (a64SectionRelative shAddr)) img A.fits
    (by
      intro x hx
      obtain ⟨x', hx', rfl⟩ := List.mem_map.1 hx
      rw [hwd]; exact (A.inside x' hx').2) A.disjoint
    (by
      intro x hx
      obtain ⟨x', hx', rfl⟩ := List.mem_map.1 hx
      exact A.global x' hx') A.ok
  generalize (a64Relocate load sec syms (rs'.map (a64SectionRelative shAddr)) img).1 = img' at f1 f2 ⊢
  have hwr : a64Width ({ offset := r.offset, typ := .tlsieAdrPage21, sym := r.sym, addend := pg } : Rela A64Rel) = 4 := rfl
  have hsz : r.offset - shAddr + 4 ≤ sec.size := by
    have := hin'.2
    rw [hwr] at this
    exact this
  have hold : bytesAt img (sec.fileOff + (r.offset - shAddr)) 4 = bytesAt text (r.offset - shAddr) 4 := by
    apply bytesAt_congr2
    intro k hk
    rw [Nat.add_assoc]
    exact A.code _ (by omega)
  have hd := f1 _ (List.mem_map_of_mem hmem) .adrp rfl
  have hx : a64Wanted load sec.isInfo (a64SectionRelative shAddr ⟨r.offset, .tlsieAdrPage21, r.sym, pg⟩)
      (symAt syms r.sym) = load + pg := by
    unfold a64Wanted
    simp only [a64SectionRelative, hrun, if_true]
    rw [show (A64Rel.tlsieAdrPage21 == A64Rel.adrGotPage || A64Rel.tlsieAdrPage21 == A64Rel.ld64GotLo12) = false from rfl,
      Bool.and_false]
    simp
  simp only [show (a64SectionRelative shAddr ⟨r.offset, .tlsieAdrPage21, r.sym, pg⟩).sym = r.sym from rfl,
    show (a64SectionRelative shAddr ⟨r.offset, .tlsieAdrPage21, r.sym, pg⟩).offset = r.offset - shAddr from rfl,
    hx, show A64Use.adrp.width = 4 from rfl, hold] at hd
  have hd2 := hd hreach trivial
  -- the `adrp` of the section at its final address
  have hadrp2 : ∃ v2, (field32 (bytesAt text (r.offset - shAddr) 4)).bind
      (a64Adrp (sec.addr + BitVec.ofNat 64 (r.offset - shAddr))) = some (rd, v2) := by
    cases hf : field32 (bytesAt text (r.offset - shAddr) 4) with
    | none => rw [hf] at hadrp; simp at hadrp
    | some w =>
      rw [hf, Option.bind_some] at hadrp
      rw [Option.bind_some]
      unfold a64Adrp at hadrp ⊢
      split at hadrp
      next hc =>
        rw [if_pos hc]
        simp only [Option.some.injEq, Prod.mk.injEq] at hadrp ⊢
        exact ⟨_, hadrp.1, rfl⟩
      · simp at hadrp
  obtain ⟨v2, hv2⟩ := hadrp2
  refine ⟨page (load + pg), hd2 rd v2 hv2, ?_, ?_⟩
  · rw [← hldr]
    congr 1
    have : bytesAt img' (sec.fileOff + q) 4 = bytesAt text q 4 := by
      apply bytesAt_congr2
      intro k hk
      rw [f2 _ (by
        intro x hx
        obtain ⟨x', hx', rfl⟩ := List.mem_map.1 hx
        rw [hwd]
        have := hfree x' hx'
        show sec.fileOff + q + k < sec.fileOff + (x'.offset - shAddr) ∨
          sec.fileOff + (x'.offset - shAddr) + _ ≤ sec.fileOff + q + k
        omega), Nat.add_assoc]
      exact A.code _ (by omega)
    rw [this]
  · rw [← hslot, ← BitVec.add_assoc]
    congr 1
    -- both are multiples of the page size
    have hpg : pg.toNat % 4096 = 0 := by
      unfold a64Adrp at hw
      split at hw
      · simp only [Option.some.injEq, Prod.mk.injEq] at hw
        rw [← hw.2]
        have h2 := shl12_low ((BitVec.setWidth 21 (BitVec.extractLsb' 5 19 (ld32 (List.drop (r.offset - shAddr) text))) <<< 2) |||
          BitVec.setWidth 21 (BitVec.extractLsb' 29 2 (ld32 (List.drop (r.offset - shAddr) text))))
        have h3 := page_mod (BitVec.ofNat 64 r.offset)
        rw [BitVec.toNat_add]
        omega
      · simp at hw
    unfold page
    rw [clear_low12]
    apply BitVec.eq_of_toNat_eq
    have h1 := and_fff (load + pg)
    rw [BitVec.toNat_sub, h1]
    simp only [BitVec.toNat_add]
    omega

/-! ### Non-vacuity and violations -/

namespace ExFixTls
/-- An original with the thread-local variables `x`, at offset 16, and `y`, at offset 24. -/
def orig : FixObj :=
  { secs := [⟨[], 0⟩, ⟨lit ".text", 0x1000⟩, ⟨lit ".tdata", 0x3e00⟩]
    syms := [⟨[], ⟨0, 0, 0, .notype, .loc⟩⟩, ⟨lit "x", ⟨16, 8, 2, .tls, .glob⟩⟩, ⟨lit "y", ⟨24, 8, 2, .tls, .loc⟩⟩]
    dynNames := [[], lit "errno"] }
/-- The linked patch: code in `.kpatch.text` at 0x6000, symbols `x` and `y` of the original, a label, a string, a copied
variable of a library, a variable of a library. -/
def patch : FixObj :=
  { secs := [⟨[], 0⟩, ⟨lit ".kpatch.text", 0x6000⟩, ⟨lit ".tdata", 0x3e00⟩, ⟨lit ".rodata", 0x2000⟩, ⟨lit ".bss", 0x4000⟩]
    syms := [⟨[], ⟨0, 0, 0, .notype, .loc⟩⟩, ⟨lit "x", ⟨16, 8, 2, .tls, .glob⟩⟩, ⟨lit ".L0", ⟨0x6004, 0, 1, .notype, .loc⟩⟩,
      ⟨[], ⟨0x2000, 0, 3, .sect, .loc⟩⟩, ⟨lit ".LC0", ⟨0x2010, 0, 3, .notype, .loc⟩⟩,
      ⟨lit "stderr@GLIBC_2.27", ⟨0x4010, 8, 4, .object, .glob⟩⟩, ⟨lit "errno@GLIBC_PRIVATE", ⟨0, 0, 0, .tls, .glob⟩⟩] }

theorem linked : LinkedObj patch := by
  constructor
  · decide +kernel
  · decide

theorem dots : ∀ s ∈ patch.syms, s.sym.bind = .loc → s.name.head? = some 0x2e#8 → 0x40#8 ∉ s.name := by decide +kernel

/-! RISC-V: `auipc a5, 0; ld a5, 0(a5)` at 0x6004 and 0x6008, the address of a string, `stderr`. -/

def rvDyn : Option (List (DynRelOf RvDyn)) :=
  some [⟨0x3f00, .other, 0, 0x1000⟩, ⟨0x3fe0, .tprel64, 0, 16⟩, ⟨0x3fe8, .tprel64, 1, 0⟩]
def rvRels : List (Rela RvFixRel) :=
  [⟨0x6000, .run .pcrelHi20, 4, 0#64⟩, ⟨0x6004, .run .tlsGotHi20, 1, 0#64⟩, ⟨0x6008, .run .pcrelLo12I, 2, 0#64⟩,
   ⟨0x600c, .run .pcrelHi20, 5, 0#64⟩]
def rvRels' : List (Rela RvFixRel) :=
  [⟨0x6000, .run .pcrelHi20, 3, 0x10#64⟩, ⟨0x6004, .run .tlsGotHi20, 1, 0x3fe0#64⟩, ⟨0x6008, .run .pcrelLo12I, 2, 0#64⟩,
   ⟨0x600c, .run .pcrelHi20, 5, 0#64⟩]
def patch' : FixObj :=
  { patch with syms := patch.syms.set 5 ⟨lit "stderr@GLIBC_2.27", ⟨0x4010, 8, 0, .object, .glob⟩⟩ }

instance : DecidableEq (Rela RvFixRel) := fun a b =>
  decidable_of_iff (a.offset = b.offset ∧ a.typ = b.typ ∧ a.sym = b.sym ∧ a.addend = b.addend) (by
    cases a; cases b; simp)
instance : DecidableEq (Rela A64Rel) := fun a b =>
  decidable_of_iff (a.offset = b.offset ∧ a.typ = b.typ ∧ a.sym = b.sym ∧ a.addend = b.addend) (by
    cases a; cases b; simp)
instance : DecidableEq (Rela LoongFixRel) := fun a b =>
  decidable_of_iff (a.offset = b.offset ∧ a.typ = b.typ ∧ a.sym = b.sym ∧ a.addend = b.addend) (by
    cases a; cases b; simp)

theorem rvFixed : rvFixup orig rvDyn patch rvRels = some (rvRels', patch') := by decide +kernel

def rvSec : RelSec := { fileOff := 4, size := 16, addr := 0x20006000#64 }
/-- The symbols when the patch is applied: the original is at 0x10000000, `.rodata` of the patch at 0x20007000. -/
def rvSt : RvState :=
  { syms := [⟨0, 0, 0, .notype, .loc⟩, ⟨16, 8, 2, .tls, .glob⟩, ⟨0x20006004, 0, 1, .notype, .loc⟩,
      ⟨0x20007000, 0, 3, .sect, .loc⟩, ⟨0x20007010, 0, 3, .notype, .loc⟩, ⟨0x20008000, 0x7f0000001000, 0, .object, .glob⟩,
      ⟨0, 0, 0, .tls, .glob⟩]
    jtab := []
    img := [0, 0, 0, 0] ++ le32 0x00000517#32 ++ le32 0x00000797#32 ++ le32 0x0007b783#32 ++ le32 0x00000597#32 }
def rvPeek : BitVec 64 → Option (BitVec 64) := fun _ => none

theorem rvApplied : RvFixApplied 0x6000 rvRels' 0x10000000#64 rvPeek 0#64 rvSec rvSt where
  fits := by decide
  size := by decide
  inside := by decide +kernel
  disjoint := by decide +kernel
  noSlots := by decide +kernel
  ok := by decide +kernel

theorem rvSlot : ∀ slot, OffsetSlotOf .tprel64 orig.dynNames rvDyn ⟨lit "x", ⟨16, 8, 2, .tls, .glob⟩⟩ slot → slot = 0x3fe0#64 := by
  rintro slot ⟨all, ha, d, hd, h1, rfl, h3⟩
  simp only [rvDyn, Option.some.injEq] at ha
  subst ha
  simp only [List.mem_cons, List.not_mem_nil, or_false] at hd
  rcases hd with rfl | rfl | rfl
  · simp at h1
  · rfl
  · simp at h3

/-- The hypotheses of the theorems for RISC-V hold here; the access reads the slot at 0x10003fe0. -/
example : ∃ v' imm',
    (field32 (bytesAt (rvRelocate 0x10000000#64 rvPeek 0#64 rvSec (rvRels'.map (rvSectionRelative 0x6000)) rvSt).1.img 8 4)).bind
      (rvAuipc 0x20006004#64) = some (15#5, v') ∧
    (field32 (bytesAt (rvRelocate 0x10000000#64 rvPeek 0#64 rvSec (rvRels'.map (rvSectionRelative 0x6000)) rvSt).1.img 12 4)).map
      rvImmI = some (0x7b783#20, imm') ∧
    v' + imm'.signExtend 64 = 0x10003fe0#64 := by
  obtain ⟨slot, hsl, key⟩ := C74_read_riscv_partial rvFixed linked dots (by
      intro all ha d hd
      simp only [rvDyn, Option.some.injEq] at ha
      subst ha
      revert d
      decide) rvApplied (i := 1) (j := 2) (by decide) (hi := ⟨0x6004, .run .tlsGotHi20, 1, 0#64⟩)
    (lo := ⟨0x6008, .run .pcrelLo12I, 2, 0#64⟩) (lo' := ⟨0x6008, .run .pcrelLo12I, 2, 0#64⟩) rfl rfl rfl rfl rfl
    (s := ⟨lit "x", ⟨16, 8, 2, .tls, .glob⟩⟩) rfl rfl (l := ⟨lit ".L0", ⟨0x6004, 0, 1, .notype, .loc⟩⟩) rfl (by decide)
    (by decide) (by decide) (by decide) (rd := 15#5) (v := 0x20006004#64) (rest := 0x7b783#20) (imm := 0#12)
    (by decide) (by decide) (by
      intro slot hs
      rw [rvSlot slot hs]
      decide)
  have := rvSlot slot hsl
  subst this
  exact key

/-- `stderr` is imported, the string is not touched. -/
example : Imported orig (lit "stderr@GLIBC_2.27") ∧ OfProgram patch ⟨0x4010, 8, 4, .object, .glob⟩ := by
  refine ⟨(copiedName_iff _ _).1 (by decide +kernel), by decide, by decide, by decide, ?_⟩
  rintro ⟨_, sec, hs, hp⟩
  simp only [patch, List.getElem?_cons_succ, List.getElem?_cons_zero, Option.some.injEq] at hs
  subst hs
  revert hp
  decide +kernel

/-! LoongArch: `ori a0, a0, %le_lo12(x)` and `ld.d` of the initial-exec model. -/

def loongDyn : Option (List (DynRelOf LoongDyn)) :=
  some [⟨0x3f00, .other, 0, 0x1000⟩, ⟨0x3fe0, .tprel64, 0, 16⟩, ⟨0x3fe8, .tprel64, 1, 0⟩]
def loongRels : List (Rela LoongFixRel) := [⟨0x6000, .leLo12, 1, 0#64⟩, ⟨0x6004, .run .tlsIePcHi20, 1, 0#64⟩]
theorem loongFixed : loongFixup orig loongDyn patch loongRels =
    some ([⟨0x6000, .run .none, 0, 0#64⟩, ⟨0x6004, .run .tlsIePcHi20, 1, 0#64⟩], patch) := by decide +kernel

/-- The hypotheses of the theorems for LoongArch hold here. -/
example : ∃ o, orig.syms.find? (fun o => o.name == lit "x") = some o ∧ o.sym.typ = .tls ∧ o.sym.shndx ≠ 0 ∧
    tpOffset1 o.sym = 16 :=
  (C74_offset_loongarch loongFixed dots (i := 0) rfl (s := ⟨lit "x", ⟨16, 8, 2, .tls, .glob⟩⟩) rfl rfl (Or.inl rfl)).2

/-! AArch64: `adrp x0, 0x3000; ldr x0, [x0, #0xfe0]` at 0x6004. -/

def a64Text : List Byte := le32 0xd503201f#32 ++ le32 0xb0ffffe0#32 ++ le32 0xf947f000#32
def a64Rels : List (Rela A64Rel) := [⟨0x6004, .tlsieAdrPage21, 1, 0#64⟩, ⟨0x6008, .tlsieLd64Lo12, 1, 0#64⟩]
def a64Rels' : List (Rela A64Rel) := [⟨0x6004, .tlsieAdrPage21, 1, 0x3000#64⟩, ⟨0x6008, .tlsieLd64Lo12, 1, 0#64⟩]
theorem a64Fixed : a64Fixup orig patch 0x6000 a64Text a64Rels = some (a64Rels', patch) := by decide +kernel
def a64Sec : RelSec := { fileOff := 4, size := 12, addr := 0x20006000#64 }
def a64Img : List Byte := [0, 0, 0, 0] ++ a64Text
theorem a64Applied : A64FixApplied 0x6000 a64Rels' a64Text 0x10000000#64 a64Sec rvSt.syms a64Img where
  code := by decide +kernel
  size := by decide
  fits := by decide
  inside := by decide +kernel
  disjoint := by decide +kernel
  global := by decide +kernel
  ok := by decide +kernel

/-- The hypotheses of the theorems for AArch64 hold here; the access reads the slot at 0x10003fe0. -/
example : ∃ v,
    (field32 (bytesAt (a64Relocate 0x10000000#64 a64Sec rvSt.syms (a64Rels'.map (a64SectionRelative 0x6000)) a64Img).1 8 4)).bind
      (a64Adrp 0x20006004#64) = some (0#5, v) ∧
    (field32 (bytesAt (a64Relocate 0x10000000#64 a64Sec rvSt.syms (a64Rels'.map (a64SectionRelative 0x6000)) a64Img).1 12 4)).bind
      a64LdSt = some ⟨3, 1, 0, 0, 0xfe0#64⟩ ∧ v + 0xfe0#64 = 0x10000000#64 + 0x3fe0#64 :=
  C74_read_aarch64_partial a64Fixed a64Applied (i := 0) (r := ⟨0x6004, .tlsieAdrPage21, 1, 0#64⟩) rfl rfl
    (s := ⟨lit "x", ⟨16, 8, 2, .tls, .glob⟩⟩) rfl rfl (by decide) (by decide) (rd := 0#5) (pg := 0x3000#64) (q := 8)
    (m := ⟨3, 1, 0, 0, 0xfe0#64⟩) (by decide +kernel) (by decide +kernel) (by decide) (by decide) (by decide +kernel)
    (by decide) (by decide) (by decide) (by
      constructor <;> decide)

end ExFixTls
open ExFixTls

/-- C74 is false for the local-exec model on RISC-V: offsets from the thread pointer in the code of the patch are not
compared with the original's.  Here the variable `x` is at offset 8 in the linked patch and at offset 16 in the original;
the patch is accepted, and when it is applied the `lw` still has the offset 8. -/
theorem C74_violated_local_exec_riscv :
    let p : FixObj := { patch with syms := patch.syms.set 1 ⟨lit "x", ⟨8, 8, 2, .tls, .glob⟩⟩ }
    let rs : List (Rela RvFixRel) := [⟨0x6000, .tprelLo12I, 1, 0#64⟩]
    let code : List Byte := le32 0x0087a503#32
    orig.syms.find? (fun o => o.name == lit "x") = some ⟨lit "x", ⟨16, 8, 2, .tls, .glob⟩⟩ ∧
    rvFixup orig rvDyn p rs = some (rs, p) ∧
    (rvRelocate 0x10000000#64 rvPeek 0#64 { fileOff := 0, size := 4, addr := 0x20006000#64 }
      (rs.map (rvSectionRelative 0x6000)) { rvSt with img := code }).2 = true ∧
    (field32 (rvRelocate 0x10000000#64 rvPeek 0#64 { fileOff := 0, size := 4, addr := 0x20006000#64 }
      (rs.map (rvSectionRelative 0x6000)) { rvSt with img := code }).1.img).map (fun w => (rvImmI w).2) = some 8#12 := by
  decide +kernel

/-- C74 is false for thread-local variables of libraries on RISC-V: the slot of `errno` is found, at 0x3fe8, but when the
patch is applied the load offset of the program is not added. -/
theorem C74_violated_library_tls_riscv :
    let rs : List (Rela RvFixRel) := [⟨0x6000, .run .tlsGotHi20, 6, 0#64⟩]
    let rs' : List (Rela RvFixRel) := [⟨0x6000, .run .tlsGotHi20, 6, 0x3fe8#64⟩]
    let code : List Byte := le32 0x00000797#32
    rvFixup orig rvDyn patch rs = some (rs', patch) ∧
    OffsetSlotOf .tprel64 orig.dynNames rvDyn ⟨lit "errno@GLIBC_PRIVATE", ⟨0, 0, 0, .tls, .glob⟩⟩ 0x3fe8#64 ∧
    (rvRelocate 0x10000000#64 rvPeek 0#64 { fileOff := 0, size := 4, addr := 0x20006000#64 }
      (rs'.map (rvSectionRelative 0x6000)) { rvSt with img := code }).2 = true ∧
    (field32 (rvRelocate 0x10000000#64 rvPeek 0#64 { fileOff := 0, size := 4, addr := 0x20006000#64 }
      (rs'.map (rvSectionRelative 0x6000)) { rvSt with img := code }).1.img).bind (rvAuipc 0x20006000#64) =
      some (15#5, 0x4000#64) := by
  refine ⟨by decide +kernel, ⟨_, rfl, ⟨0x3fe8, .tprel64, 1, 0⟩, by decide, rfl, rfl, Or.inr ⟨rfl, rfl, by decide, rfl, ?_⟩⟩,
    by decide +kernel, by decide +kernel⟩
  decide +kernel

/-- C74 is false when the slot is too far away on RISC-V, which is not checked: the program at 0x10000000, the patch at
0x700000006000, and the `auipc` for the slot at 0x10003fe0 gives an address near the patch. -/
theorem C74_violated_reach_riscv :
    let rs' : List (Rela RvFixRel) := [⟨0x6000, .run .tlsGotHi20, 1, 0x3fe0#64⟩]
    let code : List Byte := le32 0x00000797#32
    rvFixup orig rvDyn patch [⟨0x6000, .run .tlsGotHi20, 1, 0#64⟩] = some (rs', patch) ∧
    (rvRelocate 0x10000000#64 rvPeek 0#64 { fileOff := 0, size := 4, addr := 0x700000006000#64 }
      (rs'.map (rvSectionRelative 0x6000)) { rvSt with img := code }).2 = true ∧
    (field32 (rvRelocate 0x10000000#64 rvPeek 0#64 { fileOff := 0, size := 4, addr := 0x700000006000#64 }
      (rs'.map (rvSectionRelative 0x6000)) { rvSt with img := code }).1.img).bind (rvAuipc 0x700000006000#64) =
      some (15#5, 0x700010004000#64) := by
  decide +kernel

/-- C74 is false for instructions beyond the first page of their section on AArch64: the page is counted from the start of
the section.  The `adrp` at 0x7004 in a section linked at 0x6000 gives the page 0x4000 in the linked patch; when the patch
is applied to a program at 0x10000000 it gives 0x10003000 instead of 0x10004000. -/
theorem C74_violated_page_aarch64 :
    let text := List.replicate 0x1004 0#8 ++ le32 0xb0ffffe0#32
    let rs' : List (Rela A64Rel) := [⟨0x7004, .tlsieAdrPage21, 1, 0x3000#64⟩]
    a64Adrp 0x7004#64 0xb0ffffe0#32 = some (0#5, 0x4000#64) ∧
    a64Fixup orig patch 0x6000 text [⟨0x7004, .tlsieAdrPage21, 1, 0#64⟩] = some (rs', patch) ∧
    (a64Relocate 0x10000000#64 { fileOff := 0, size := 0x1008, addr := 0x20006000#64 } rvSt.syms
      (rs'.map (a64SectionRelative 0x6000)) text).2 = true ∧
    (field32 (bytesAt (a64Relocate 0x10000000#64 { fileOff := 0, size := 0x1008, addr := 0x20006000#64 } rvSt.syms
      (rs'.map (a64SectionRelative 0x6000)) text).1 0x1004 4)).bind (a64Adrp 0x20007004#64) =
      some (0#5, 0x10003000#64) := by
  decide +kernel

/-- C74 is false on AArch64 whenever the linked patch has its slots elsewhere: what the rewriting gives does not depend on
the original's slots at all, only on the code of the linked patch.  So for two originals that both can be loaded, with the
slot of the variable at different places, the patch reads the same place, which is wrong for one of them. -/
theorem C74_violated_slot_aarch64 (o1 o2 patch : FixObj) (shAddr : Nat) (text : List Byte) (rs : List (Rela A64Rel))
    (h1 : (kpatchSections o1).isSome) (h2 : (kpatchSections o2).isSome) :
    a64Fixup o1 patch shAddr text rs = a64Fixup o2 patch shAddr text rs := by
  unfold a64Fixup archFix
  cases e1 : kpatchSections o1 with
  | none => rw [e1] at h1; simp at h1
  | some a =>
    cases e2 : kpatchSections o2 with
    | none => rw [e2] at h2; simp at h2
    | some b => cases kpatchSections patch <;> rfl

end Verif
