import Verif.Proof.RelocLoong
/-
C27: relocations of LoongArch patches make the instructions compute the intended address.
-/
namespace Verif
open Cpu

/-- What the relocation types that do not go through the global offset table or thread-local storage
and do not set the upper 20 bits are for (LoongArch psABI, "Relocation types").  The remaining types are
treated in the violation theorems below. -/
def loongUse : LoongRel → Option LaUse
  | .r32 => some .abs32
  | .r64 => some .abs64
  | .add32 => some .add32
  | .add64 => some .add64
  | .sub32 => some .sub32
  | .sub64 => some .sub64
  | .absLo12 | .pcalaLo12 => some .lo12
  | .b16 => some .branch16
  | .b21 => some .branch21
  | .b26 => some .branch26
  | .pcrel20 => some .pcaddi
  | _ => none

/-- Width of the field of a relocation. -/
def loongWidth (r : Rela LoongRel) : Nat :=
  match r.typ with
  | .none | .relax | .jumpSlot | .tlsOther | .other _ => 0
  | .r64 | .add64 | .sub64 => 8
  | _ => 4

theorem loong_local (load : BitVec 64) (sec : RelSec) : LocalAct (loongAct load sec) loongWidth where
  reads := by
    intro r s d d' h
    unfold loongWidth at h
    unfold loongAct
    cases loongVal load r s with
    | none => rfl
    | some val =>
      cases ht : r.typ <;> rw [ht] at h <;> simp only [loongApply]
      all_goals first
        | (have e : ld32 d = ld32 d' := by rw [← ld32_take d 4 (by omega), h, ld32_take d' 4 (by omega)]
           rw [e])
        | (have e : ld64 d = ld64 d' := by rw [← ld64_take d, h, ld64_take d']
           rw [e])
  writes := by
    intro r s d bs h
    unfold loongAct at h
    unfold loongWidth
    cases hv : loongVal load r s with
    | none => rw [hv] at h; contradiction
    | some val =>
      rw [hv] at h
      cases ht : r.typ <;> rw [ht] at h <;> simp only [loongApply] at h ⊢
      all_goals first
        | contradiction
        | (split at h <;> first | contradiction | (simp only [Act.write.injEq] at h; subst h; simp [le32_length]))
        | (simp only [Act.write.injEq] at h; subst h; simp [le64_length, le32_length])

theorem loong_val_plain (load : BitVec 64) (r : Rela LoongRel) (s : Sym) (u : LaUse) (hu : loongUse r.typ = some u) :
    loongVal load r s = some (s.value + r.addend) := by
  have : loongAdjust load r s = 0#64 := by
    unfold loongAdjust
    cases ht : r.typ <;> rw [ht] at hu <;> simp [loongUse] at hu ⊢
  unfold loongVal
  rw [this, if_neg (by decide), if_neg (by decide)]

theorem loong_act_denotes (load : BitVec 64) (sec : RelSec) (r : Rela LoongRel) (s : Sym) (d bs : List Byte) (u : LaUse)
    (hu : loongUse r.typ = some u) (h : loongAct load sec r s d = .write bs)
    (h16 : u = .branch16 → s.value + r.addend = sec.addr + BitVec.ofNat 64 r.offset) :
    bs.length = u.width ∧
      u.denotes (sec.addr + BitVec.ofNat 64 r.offset) (s.value + r.addend) (d.take u.width) bs := by
  unfold loongAct at h
  rw [loong_val_plain load r s u hu] at h
  dsimp only at h
  generalize sec.addr + BitVec.ofNat 64 r.offset = p at *
  generalize s.value + r.addend = x at *
  have hld : ld32 (d.take 4) = ld32 d := ld32_take d 4 (by omega)
  cases ht : r.typ <;> rw [ht] at h hu <;>
    simp only [loongUse, reduceCtorEq, Option.some.injEq] at hu <;> subst hu <;> simp only [loongApply] at h
  case r32 => cases h; exact ⟨rfl, field32_le32 _⟩
  case r64 => cases h; exact ⟨rfl, field64_le64 _⟩
  case add32 =>
    cases h; refine ⟨rfl, ?_⟩
    intro v hv
    have := field32_some hv
    simp only [LaUse.width] at this
    rw [hld] at this
    rw [field32_le32, this]
  case sub32 =>
    cases h; refine ⟨rfl, ?_⟩
    intro v hv
    have := field32_some hv
    simp only [LaUse.width] at this
    rw [hld] at this
    rw [field32_le32, this]
  case add64 =>
    cases h; refine ⟨rfl, ?_⟩
    intro v hv
    have := field64_some hv
    simp only [LaUse.width] at this
    rw [ld64_take] at this
    rw [field64_le64, this]
  case sub64 =>
    cases h; refine ⟨rfl, ?_⟩
    intro v hv
    have := field64_some hv
    simp only [LaUse.width] at this
    rw [ld64_take] at this
    rw [field64_le64, this]
  case absLo12 | pcalaLo12 =>
    cases h; refine ⟨rfl, ?_⟩
    intro w hw
    have := field32_some hw
    simp only [LaUse.width] at this
    rw [hld] at this
    rw [field32_le32, this]
    simp [la_lo12_ok]
  case b16 =>
    split at h
    · cases h
      refine ⟨rfl, ?_⟩
      intro op rj rd t hold
      have := bind_field hold
      simp only [LaUse.width] at this
      rw [hld] at this
      rw [field32_le32, Option.bind_some, la_b16_eq _ _ _ _ _ _ _ this, h16 rfl]
      simp
    · contradiction
  case b21 =>
    split at h
    · rename_i hr
      cases h
      refine ⟨rfl, ?_⟩
      intro op rj t hold
      have := bind_field hold
      simp only [LaUse.width] at this
      rw [hld] at this
      rw [field32_le32, Option.bind_some, la_b21_ok _ _ _ _ _ _ this hr]
    · contradiction
  case b26 =>
    split at h
    · rename_i hr
      cases h
      refine ⟨rfl, ?_⟩
      intro op t hold
      have := bind_field hold
      simp only [LaUse.width] at this
      rw [hld] at this
      rw [field32_le32, Option.bind_some, la_b26_ok _ _ _ _ _ this hr]
    · contradiction
  case pcrel20 =>
    split at h
    · rename_i hr
      cases h
      refine ⟨rfl, ?_⟩
      intro rd v hold
      have := bind_field hold
      simp only [LaUse.width] at this
      rw [hld] at this
      rw [field32_le32, Option.bind_some, la_pcaddi_ok _ _ _ _ _ this hr]
    · contradiction

/-- C27, partial.  Missing, because the code gets them wrong: the types that set the upper 20 bits
(`C27_violated_hi20`), two-register branches to anything but themselves (`C27_violated_b16`), references
through a slot (`C27_violated_got`) and thread-local references (`C27_violated_tls`).  For the others
there is no hypothesis on the addresses: if the section was relocated successfully, every branch,
`pcaddi`, 12-bit immediate and datum has the intended address `S + A` at its final place with the same
opcode and registers, and nothing else has changed. -/
theorem C27_instructions_denote_partial (load : BitVec 64) (sec : RelSec) (syms : List Sym)
    (rs : List (Rela LoongRel)) (img : List Byte)
    (himg : sec.fileOff + sec.size ≤ img.length)
    (hin : ∀ r ∈ rs, r.offset + loongWidth r ≤ sec.size)
    (hdis : rs.Pairwise fun a b => a.offset + loongWidth a ≤ b.offset ∨ b.offset + loongWidth b ≤ a.offset)
    (hok : (loongRelocate load sec syms rs img).2 = true) :
    let img' := (loongRelocate load sec syms rs img).1
    (∀ r ∈ rs, ∀ u, loongUse r.typ = some u → r.typ ≠ .b16 →
      u.denotes (sec.addr + BitVec.ofNat 64 r.offset) ((symAt syms r.sym).value + r.addend)
        (bytesAt img (sec.fileOff + r.offset) u.width) (bytesAt img' (sec.fileOff + r.offset) u.width)) ∧
    (∀ k, (∀ r ∈ rs, k < sec.fileOff + r.offset ∨ sec.fileOff + r.offset + loongWidth r ≤ k) →
      img'[k]? = img[k]?) := by
  intro img'
  have ns : ∀ r ∈ rs, ∀ d, loongAct load sec r (symAt syms r.sym) d ≠ .stop := by
    intro r _ d
    unfold loongAct
    split
    · simp
    · unfold loongApply
      cases r.typ <;> simp <;> split <;> simp
  obtain ⟨_, h2, h3⟩ := relocLoop_spec _ _ (loong_local load sec) sec syms img himg rs img rfl hin hdis ns hok
  refine ⟨?_, h3⟩
  intro r hr u hu hne
  obtain ⟨_, bs, hb1, hb2⟩ := h2 r hr
  obtain ⟨hl, hd⟩ := loong_act_denotes load sec r _ _ bs u hu hb1 (by
    intro hb; exfalso; subst hb
    cases ht : r.typ <;> rw [ht] at hu hne <;> simp [loongUse] at hu hne)
  rw [← hl]
  have e : bytesAt img' (sec.fileOff + r.offset) bs.length = bs := hb2
  rw [e, hl]
  exact hd

/-- C27: a branch or `pcaddi` whose target does not fit or is not a multiple of 4 away is refused. -/
theorem C27_out_of_reach_refused (load : BitVec 64) (sec : RelSec) (syms : List Sym)
    (rs : List (Rela LoongRel)) (img : List Byte) (r : Rela LoongRel) (hr : r ∈ rs) (n : Nat)
    (ht : (r.typ = .b16 ∧ n = 17) ∨ (r.typ = .b21 ∧ n = 22) ∨ (r.typ = .b26 ∧ n = 27) ∨ (r.typ = .pcrel20 ∧ n = 21))
    (hbad : let d := (symAt syms r.sym).value + r.addend - (sec.addr + BitVec.ofNat 64 r.offset)
      d.toInt < -(2 ^ n : Int) ∨ 2 ^ n ≤ d.toInt ∨ d.toNat % 4 ≠ 0) :
    (loongRelocate load sec syms rs img).2 = false := by
  unfold loongRelocate
  induction rs generalizing img with
  | nil => simp at hr
  | cons x rs ih =>
    simp only [relocLoop]
    by_cases hge : x.offset ≥ sec.size
    · rw [if_pos hge]
    rw [if_neg hge]
    cases hact : loongAct load sec x (syms.getD x.sym ⟨0, 0, 0, .notype, .loc⟩) (img.drop (sec.fileOff + x.offset)) with
    | fail => rfl
    | stop =>
      exfalso
      unfold loongAct at hact
      split at hact
      · contradiction
      · unfold loongApply at hact
        cases hty : x.typ <;> simp [hty] at hact <;> split at hact <;> contradiction
    | write bs =>
      rcases List.mem_cons.1 hr with rfl | hr
      · exfalso
        have hf : laInRange n ((symAt syms r.sym).value + r.addend - (sec.addr + BitVec.ofNat 64 r.offset)) = false := by
          cases hv : laInRange n ((symAt syms r.sym).value + r.addend - (sec.addr + BitVec.ofNat 64 r.offset)) with
          | false => rfl
          | true =>
            have := laInRange_spec hv
            dsimp only at hbad
            omega
        have hu : ∃ u, loongUse r.typ = some u := by
          rcases ht with h | h | h | h <;> rw [h.1] <;> exact ⟨_, rfl⟩
        obtain ⟨u, hu⟩ := hu
        unfold loongAct at hact
        rw [loong_val_plain load r _ u hu] at hact
        simp only [symAt] at hf
        rcases ht with ⟨h, rfl⟩ | ⟨h, rfl⟩ | ⟨h, rfl⟩ | ⟨h, rfl⟩ <;>
          (simp only [loongApply, h] at hact; rw [hf] at hact; simp at hact)
      · exact ih _ hr

/-- C27: the difference of two labels, stored by a pair of relocations at the same place. -/
theorem C27_label_difference (load : BitVec 64) (sec : RelSec) (syms : List Sym) (off i j : Nat) (a b : BitVec 64)
    (img : List Byte) (hin : off + 4 ≤ sec.size) (himg : sec.fileOff + sec.size ≤ img.length)
    (v : BitVec 32) (hv : field32 (bytesAt img (sec.fileOff + off) 4) = some v) :
    (loongRelocate load sec syms [⟨off, .add32, i, a⟩, ⟨off, .sub32, j, b⟩] img).2 = true ∧
    field32 (bytesAt (loongRelocate load sec syms [⟨off, .add32, i, a⟩, ⟨off, .sub32, j, b⟩] img).1
        (sec.fileOff + off) 4) =
      some (v + ((symAt syms i).value + a).setWidth 32 - ((symAt syms j).value + b).setWidth 32) := by
  have h1 : ¬ off ≥ sec.size := by omega
  have hld : ld32 (img.drop (sec.fileOff + off)) = v := by
    rw [← ld32_take _ 4 (by omega)]; exact field32_some hv
  have hva : loongVal load ⟨off, .add32, i, a⟩ (symAt syms i) = some ((symAt syms i).value + a) :=
    loong_val_plain load ⟨off, .add32, i, a⟩ _ .add32 rfl
  have hvb : loongVal load ⟨off, .sub32, j, b⟩ (symAt syms j) = some ((symAt syms j).value + b) :=
    loong_val_plain load ⟨off, .sub32, j, b⟩ _ .sub32 rfl
  simp only [symAt] at hva hvb
  generalize hA : (symAt syms i).value + a = A at *
  generalize hB : (symAt syms j).value + b = B at *
  simp only [symAt] at hA hB
  have hfit : ∀ w : BitVec 32, sec.fileOff + off + (le32 w).length ≤ img.length := by
    intro w; rw [le32_length]; omega
  have hld2 : ld32 ((pokeAt img (sec.fileOff + off) (le32 (v + A.setWidth 32))).drop (sec.fileOff + off)) =
      v + A.setWidth 32 := by
    rw [← ld32_take _ 4 (by omega)]
    have := bytesAt_pokeAt img (sec.fileOff + off) (le32 (v + A.setWidth 32)) (hfit _)
    rw [le32_length] at this
    unfold bytesAt at this
    rw [this]
    exact field32_some (field32_le32 _)
  simp only [loongRelocate, relocLoop, if_neg h1, loongAct, hva, hvb, loongApply, hld, hld2]
  refine ⟨trivial, ?_⟩
  have := bytesAt_pokeAt (pokeAt img (sec.fileOff + off) (le32 (v + A.setWidth 32))) (sec.fileOff + off)
    (le32 (v + A.setWidth 32 - B.setWidth 32)) (by rw [pokeAt_length _ _ _ (hfit _)]; exact hfit _)
  rw [le32_length] at this
  rw [this, field32_le32]

/-! Non-vacuity: `bl`, `beqz $a0`, `addi.d $a0, $a0, 0`, an address constant. -/
namespace ExLoong
def sec : RelSec := { fileOff := 4, size := 24, addr := 0x7f0000001000#64 }
def syms : List Sym :=
  [⟨0, 0, 0, .notype, .loc⟩, ⟨0x7f0000002348#64, 0, 1, .object, .glob⟩,
   ⟨0x7f0000000208#64, 0x7f1234567890#64, 0, .func, .glob⟩]
def rels : List (Rela LoongRel) :=
  [⟨0, .b26, 2, 0#64⟩, ⟨4, .b21, 2, 8#64⟩, ⟨8, .pcalaLo12, 1, 0#64⟩, ⟨8, .relax, 0, 0#64⟩, ⟨16, .r64, 1, 4#64⟩]
def img : List Byte := [0, 0, 0, 0] ++ le32 0x54000000#32 ++ le32 0x40000080#32 ++ le32 0x02c00084#32 ++ le32 0#32 ++ le64 0#64

theorem ok : (loongRelocate 0#64 sec syms rels img).2 = true := by decide
example : sec.fileOff + sec.size ≤ img.length ∧ (∀ r ∈ rels, r.offset + loongWidth r ≤ sec.size) ∧
    (rels.Pairwise fun a b => a.offset + loongWidth a ≤ b.offset ∨ b.offset + loongWidth b ≤ a.offset) := by
  refine ⟨by decide, by simp [rels, loongWidth, sec], by simp [rels, loongWidth]⟩
example : (field32 (bytesAt (loongRelocate 0#64 sec syms rels img).1 4 4)).bind (laBranch26 sec.addr) =
      some (0b010101#6, 0x7f0000000208#64) ∧
    (field32 (bytesAt (loongRelocate 0#64 sec syms rels img).1 8 4)).bind (laBranch21 (sec.addr + 4#64)) =
      some (0b010000#6, 4#5, 0x7f0000000210#64) := by decide
/-- a `bl` out of reach -/
example : ((symAt syms 1).value + 0x10000000#64 - (sec.addr + BitVec.ofNat 64 0)).toInt ≥ 2 ^ 27 := by decide
end ExLoong

/-- C27 is violated: `pcalau12i` for a symbol four pages ahead gets the page one ahead. -/
theorem C27_violated_hi20 :
    ∃ (sec : RelSec) (syms : List Sym) (r : Rela LoongRel) (img : List Byte),
      r.typ = .pcalaHi20 ∧ (loongRelocate 0#64 sec syms [r] img).2 = true ∧
      (symAt syms 0).value = sec.addr + 0x4000#64 ∧
      (field32 (bytesAt (loongRelocate 0#64 sec syms [r] img).1 sec.fileOff 4)).bind (laPcalau12i sec.addr) =
        some (4#5, sec.addr + 0x1000#64) :=
  ⟨{ fileOff := 0, size := 8, addr := 0x10000#64 }, [⟨0x14000#64, 0, 1, .object, .glob⟩],
    ⟨0, .pcalaHi20, 0, 0#64⟩, le32 0x1a000004#32 ++ le32 0x02c00084#32, rfl, by decide, by decide, by decide⟩

theorem la_pcala_zero (w : BitVec 32) (p v : BitVec 64) (rd : BitVec 5) (h : laPcalau12i p w = some (rd, v)) :
    laPcalau12i p (laSetPcrel w 0#32) = some (rd, page p) := by
  unfold laPcalau12i at h ⊢
  split at h
  · rename_i hop
    simp only [Option.some.injEq, Prod.mk.injEq] at h
    have e1 : (laSetPcrel w 0#32).extractLsb' 25 7 = w.extractLsb' 25 7 := by unfold laSetPcrel; bv_bits []
    have e2 : (laSetPcrel w 0#32).extractLsb' 0 5 = w.extractLsb' 0 5 := by unfold laSetPcrel; bv_bits []
    have e3 : (laSetPcrel w 0#32).extractLsb' 5 20 = 0#20 := by unfold laSetPcrel; bv_bits []
    rw [e1, e2, e3, if_pos hop, h.1]
    simp
  · contradiction

/-- C27, the part of `pcalau12i` that is right: for a symbol of the same page, that is less than 2048 bytes before the
end of the previous page or in the first half of the page of the instruction, the register gets the page to which the
sign-extended low 12 bits are added. -/
theorem C27_same_page_partial (load : BitVec 64) (sec : RelSec) (s : Sym) (off : Nat) (a : BitVec 64) (img : List Byte)
    (hin : off + 4 ≤ sec.size) (himg : sec.fileOff + sec.size ≤ img.length) (rd : BitVec 5) (v : BitVec 64)
    (hold : (field32 (bytesAt img (sec.fileOff + off) 4)).bind (laPcalau12i (sec.addr + BitVec.ofNat 64 off)) =
      some (rd, v))
    (hpage : page (s.value + a + 0x800#64) = page (sec.addr + BitVec.ofNat 64 off)) :
    (loongRelocate load sec [s] [⟨off, .pcalaHi20, 0, a⟩] img).2 = true ∧
    (field32 (bytesAt (loongRelocate load sec [s] [⟨off, .pcalaHi20, 0, a⟩] img).1 (sec.fileOff + off) 4)).bind
        (laPcalau12i (sec.addr + BitVec.ofNat 64 off)) = some (rd, page (s.value + a + 0x800#64)) := by
  have h1 : ¬ off ≥ sec.size := by omega
  have hva : loongVal load ⟨off, .pcalaHi20, 0, a⟩ s = some (s.value + a) := by
    unfold loongVal loongAdjust
    simp
  have hold' : laPcalau12i (sec.addr + BitVec.ofNat 64 off) (ld32 (img.drop (sec.fileOff + off))) = some (rd, v) := by
    rw [← ld32_take _ 4 (by omega)]; exact bind_field hold
  simp only [loongRelocate, relocLoop, if_neg h1, loongAct, List.getD_cons_zero, hva, loongApply]
  generalize sec.addr + BitVec.ofNat 64 off = p at *
  generalize s.value + a = x at *
  have hz : ((((x + 0x800#64) &&& ~~~0xfff#64) - (p &&& ~~~0xfff#64)) >>> 12).setWidth 32 = 0#32 := by
    have : (x + 0x800#64) &&& ~~~0xfff#64 = p &&& ~~~0xfff#64 := hpage
    rw [this, BitVec.sub_self]
    rfl
  rw [hz]
  have := bytesAt_pokeAt img (sec.fileOff + off) (le32 (laSetPcrel (ld32 (img.drop (sec.fileOff + off))) 0#32))
    (by rw [le32_length]; omega)
  rw [le32_length] at this
  refine ⟨trivial, ?_⟩
  rw [this, field32_le32, Option.bind_some, la_pcala_zero _ _ _ _ hold', hpage]

/-- A symbol just before the page of the instruction: the low 12 bits are negative. -/
example : page (0x10ff8#64 + 0x800#64) = page 0x11004#64 ∧
    page 0x11004#64 + ((0x10ff8#64).extractLsb' 0 12).signExtend 64 = 0x10ff8#64 := by decide

/-- C27 is violated: `lu12i.w` for the address `0x12345000` loads `0x48d1000`. -/
theorem C27_violated_abs_hi20 :
    ∃ (sec : RelSec) (syms : List Sym) (r : Rela LoongRel) (img : List Byte),
      r.typ = .absHi20 ∧ (loongRelocate 0#64 sec syms [r] img).2 = true ∧
      (symAt syms 0).value = 0x12345000#64 ∧
      (field32 (bytesAt (loongRelocate 0#64 sec syms [r] img).1 sec.fileOff 4)).bind laLu12i =
        some (4#5, 0x48d1000#64) :=
  ⟨{ fileOff := 0, size := 8, addr := 0x10000#64 }, [⟨0x12345000#64, 0, 1, .object, .glob⟩],
    ⟨0, .absHi20, 0, 0#64⟩, le32 0x14000004#32 ++ le32 0x02c00084#32, rfl, by decide, by decide, by decide⟩

/-- C27 is violated: every conditional branch with two registers that is accepted and does not branch
to itself goes to a wrong address. -/
theorem C27_violated_b16 (load : BitVec 64) (sec : RelSec) (s : Sym) (off : Nat) (a : BitVec 64) (img : List Byte)
    (hin : off + 4 ≤ sec.size) (himg : sec.fileOff + sec.size ≤ img.length)
    (op : BitVec 6) (rj rd : BitVec 5) (t : BitVec 64)
    (hold : (field32 (bytesAt img (sec.fileOff + off) 4)).bind (laBranch16 (sec.addr + BitVec.ofNat 64 off)) =
      some (op, rj, rd, t))
    (hne : s.value + a ≠ sec.addr + BitVec.ofNat 64 off)
    (hok : (loongRelocate load sec [s] [⟨off, .b16, 0, a⟩] img).2 = true) :
    ∃ t', (field32 (bytesAt (loongRelocate load sec [s] [⟨off, .b16, 0, a⟩] img).1 (sec.fileOff + off) 4)).bind
        (laBranch16 (sec.addr + BitVec.ofNat 64 off)) = some (op, rj, rd, t') ∧ t' ≠ s.value + a := by
  have h1 : ¬ off ≥ sec.size := by omega
  have hva : loongVal load ⟨off, .b16, 0, a⟩ s = some (s.value + a) :=
    loong_val_plain load ⟨off, .b16, 0, a⟩ _ .branch16 rfl
  simp only [loongRelocate, relocLoop, if_neg h1, loongAct, List.getD_cons_zero, hva, loongApply] at hok ⊢
  have hold' : laBranch16 (sec.addr + BitVec.ofNat 64 off) (ld32 (img.drop (sec.fileOff + off))) =
      some (op, rj, rd, t) := by
    rw [← ld32_take _ 4 (by omega)]; exact bind_field hold
  generalize sec.addr + BitVec.ofNat 64 off = p at *
  generalize s.value + a = x at *
  by_cases hr : laInRange 17 (x - p) = true
  · simp only [hr, if_true]
    have := bytesAt_pokeAt img (sec.fileOff + off)
      (le32 (laSet2ri16 (ld32 (img.drop (sec.fileOff + off))) ((x - p).setWidth 32))) (by rw [le32_length]; omega)
    rw [le32_length] at this
    rw [this, field32_le32, Option.bind_some, la_b16_eq _ _ _ _ _ _ _ hold']
    exact ⟨_, rfl, fun hcon => hne (la_b16_wrong p x hr hcon)⟩
  · simp [hr] at hok

/-- `beq $a0, $a1` to the next instruction: accepted, and satisfies the hypotheses of
`C27_violated_b16`. -/
example : (loongRelocate 0#64 { fileOff := 0, size := 8, addr := 0x10000#64 } [⟨0x10004#64, 0, 1, .func, .glob⟩]
    [⟨0, .b16, 0, 0#64⟩] (le32 0x58000085#32 ++ le32 0#32)).2 = true := by decide

/-- C27 is violated: a reference through a slot to an undefined symbol reads the first instruction of
its jump table entry instead of the third word, which holds the address. -/
theorem C27_violated_got :
    ∃ (sec : RelSec) (syms : List Sym) (r : Rela LoongRel) (img : List Byte),
      r.typ = .gotPcLo12 ∧ (loongRelocate 0#64 sec syms [r] img).2 = true ∧ (symAt syms 0).isUndef = true ∧
      (field32 (bytesAt (loongRelocate 0#64 sec syms [r] img).1 sec.fileOff 4)).map (fun w => (laImm12 w).imm) =
        some ((symAt syms 0).value.extractLsb' 0 12) ∧
      (symAt syms 0).value.extractLsb' 0 12 ≠ ((symAt syms 0).value + 16#64).extractLsb' 0 12 :=
  ⟨{ fileOff := 0, size := 8, addr := 0x10000#64 }, [⟨0x500208#64, 0x7f1234567890#64, 0, .object, .glob⟩],
    ⟨0, .gotPcLo12, 0, 0#64⟩, le32 0x28c00084#32 ++ le32 0#32, rfl, by decide, by decide, by decide, by decide⟩

/-- C27 is violated: the slot address computed for a thread-local variable (`A` + load offset) is
discarded, the instruction gets the low bits of the symbol's offset in the thread-local segment. -/
theorem C27_violated_tls :
    ∃ (load : BitVec 64) (sec : RelSec) (syms : List Sym) (r : Rela LoongRel) (img : List Byte),
      r.typ = .tlsIePcLo12 ∧ (loongRelocate load sec syms [r] img).2 = true ∧
      (field32 (bytesAt (loongRelocate load sec syms [r] img).1 sec.fileOff 4)).map (fun w => (laImm12 w).imm) ≠
        some ((r.addend + load).extractLsb' 0 12) :=
  ⟨0x7f0000000000#64, { fileOff := 0, size := 8, addr := 0x10000#64 }, [⟨0x10#64, 8, 1, .tls, .glob⟩],
    ⟨0, .tlsIePcLo12, 0, 0x8f0#64⟩, le32 0x28c00084#32 ++ le32 0#32, rfl, by decide, by decide⟩

end Verif
