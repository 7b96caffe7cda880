import Verif.Proof.RelocA64
/-
C26: relocations of AArch64 patches make the instructions compute the intended address.
-/
namespace Verif
open Cpu

/-- A reference to a variable of another library: it goes through a pointer slot. -/
def Sym.viaSlot (s : Sym) : Bool := s.typ == .object && s.shndx == 0 && s.bind == .glob

/-- What each relocation type is for (ELF for the Arm 64-bit architecture, "Relocation types").
References through the global offset table to something else than a library variable are turned into
direct ones.  `none`: nothing to do at load time, or not modelled. -/
def a64Use (t : A64Rel) (s : Sym) : Option A64Use :=
  match t with
  | .abs64 => some .abs64
  | .tlsieAdrPage21 | .adrPrelPgHi21 | .adrGotPage => some .adrp
  | .addAbsLo12 => some .addImm
  | .call26 | .jump26 => some .branch
  | .ldst32Lo12 | .ldst64Lo12 | .ldst8Lo12 => some .ldst
  | .ld64GotLo12 => some (if s.viaSlot then .ldst else .ldrToAdd)
  | _ => none

/-- The address the patch author means: `S + A`; for global thread-local variables the slot of the
original program at link-time address `A`; in `.kpatch.info` the real address of an undefined symbol;
for a library variable accessed through a slot, the second word of its jump table entry. -/
def a64Wanted (load : BitVec 64) (inInfo : Bool) (r : Rela A64Rel) (s : Sym) : BitVec 64 :=
  let plain := if s.typ = .tls then load + r.addend
    else if inInfo && s.isUndef then s.size else s.value + r.addend
  if s.viaSlot && (r.typ == .adrGotPage || r.typ == .ld64GotLo12) then plain + 8#64 else plain

/-- Width of the field of a relocation. -/
def a64Width (r : Rela A64Rel) : Nat :=
  match r.typ with
  | .none | .tlsieLd64Lo12 | .other _ => 0
  | .abs64 => 8
  | _ => 4

theorem a64_local (load : BitVec 64) (sec : RelSec) : LocalAct (a64Act load sec) a64Width where
  reads := by
    intro r s d d' h
    unfold a64Width at h
    unfold a64Act
    cases ht : r.typ <;> rw [ht] at h <;> simp only [a64Apply]
    all_goals
      have e : ld32 d = ld32 d' := by rw [← ld32_take d 4 (by omega), h, ld32_take d' 4 (by omega)]
      rw [e]
  writes := by
    intro r s d bs h
    unfold a64Act at h
    unfold a64Width
    dsimp only at h
    split at h
    · contradiction
    · cases ht : r.typ <;> rw [ht] at h <;> simp only [a64Apply] at h ⊢
      all_goals first
        | contradiction
        | (split at h <;> (simp only [Act.write.injEq] at h; subst h; simp [le32_length]))
        | (simp only [Act.write.injEq] at h; subst h; simp [le64_length, le32_length])

/-- The situations in which the code is right although it is not in general: a 32-bit or 8-bit access
only works at the start of a page, and the page of a slot is computed from the word before it. -/
def a64Handled (r : Rela A64Rel) (s : Sym) (x : BitVec 64) (old : List Byte) : Prop :=
  match r.typ with
  | .ldst32Lo12 | .ldst8Lo12 => low12 x = 0#64
  | .ldst64Lo12 => ∀ i, (field32 old).bind a64LdSt = some i → i.size = 3
  | .ld64GotLo12 => ∀ i, (field32 old).bind a64LdSt = some i → i.size = 3
  | .adrGotPage => s.viaSlot = true → 8 ≤ x.toNat % 4096
  | _ => True

theorem page_slot (y : BitVec 64) (h : 8 ≤ (y + 8#64).toNat % 4096) : page (y + 8#64) = page y := by
  unfold page
  rw [clear_low12, clear_low12]
  apply BitVec.eq_of_toNat_eq
  have h1 := and_fff y
  have h2 := and_fff (y + 8#64)
  rw [BitVec.toNat_sub, BitVec.toNat_sub, h1, h2]
  rw [BitVec.toNat_add] at *
  simp only [BitVec.toNat_ofNat] at *
  omega

theorem a64SetAdrp_page (w : BitVec 32) (a b p : BitVec 64) (h : page a = page b) :
    a64SetAdrp w a p = a64SetAdrp w b p := by
  have : a >>> 12 = b >>> 12 := by
    apply BitVec.eq_of_toNat_eq
    have h' := congrArg BitVec.toNat h
    unfold page at h'
    rw [clear_low12, clear_low12] at h'
    have h1 := and_fff a
    have h2 := and_fff b
    rw [BitVec.toNat_sub, BitVec.toNat_sub, h1, h2] at h'
    simp only [BitVec.toNat_ushiftRight, Nat.shiftRight_eq_div_pow]
    omega
  unfold a64SetAdrp
  rw [this]

theorem a64_act_denotes (load : BitVec 64) (sec : RelSec) (r : Rela A64Rel) (s : Sym) (d bs : List Byte) (u : A64Use)
    (hu : a64Use r.typ s = some u) (h : a64Act load sec r s d = .write bs)
    (hc : u.canDenote (sec.addr + BitVec.ofNat 64 r.offset) (a64Wanted load sec.isInfo r s) (d.take u.width))
    (hh : a64Handled r s (a64Wanted load sec.isInfo r s) (d.take u.width)) :
    bs.length = u.width ∧
      u.denotes (sec.addr + BitVec.ofNat 64 r.offset) (a64Wanted load sec.isInfo r s) (d.take u.width) bs := by
  unfold a64Act at h
  dsimp only at h
  generalize hp : sec.addr + BitVec.ofNat 64 r.offset = p at *
  split at h
  · contradiction
  have hplain : (if s.typ = .tls then r.addend + load else if (sec.isInfo && s.isUndef) = true then s.size else s.value + r.addend)
      = (if s.typ = .tls then load + r.addend else if (sec.isInfo && s.isUndef) = true then s.size else s.value + r.addend) := by
    rw [BitVec.add_comm r.addend load]
  rw [hplain] at h
  unfold a64Wanted at *
  generalize (if s.typ = .tls then load + r.addend else if (sec.isInfo && s.isUndef) = true then s.size else s.value + r.addend) = x at *
  have hld : ∀ n, 4 ≤ n → ld32 (d.take n) = ld32 d := fun n hn => ld32_take d n hn
  have hslot : ∀ {P Q : Act}, (if s.typ = .object ∧ s.shndx = 0 ∧ s.bind = .glob then P else Q) =
      if s.viaSlot = true then P else Q := by
    intro P Q
    have : (s.typ = .object ∧ s.shndx = 0 ∧ s.bind = .glob) ↔ s.viaSlot = true := by
      simp [Sym.viaSlot, and_assoc]
    simp only [this]
  cases ht : r.typ <;> rw [ht] at h hu hc <;> simp only [a64Handled, ht] at hh <;>
    simp only [a64Use, reduceCtorEq, Option.some.injEq] at hu <;> try subst hu
  case abs64 =>
    simp only [a64Apply, Act.write.injEq] at h; subst h
    refine ⟨rfl, ?_⟩
    simp [A64Use.denotes, field64_le64]
  case tlsieAdrPage21 | adrPrelPgHi21 =>
    simp only [a64Apply, Act.write.injEq] at h; subst h
    refine ⟨rfl, ?_⟩
    simp at hc
    simp [A64Use.denotes, field32_le32]
    intro rd v hold
    have := bind_field (by simpa using hold)
    rw [hld _ (by decide)] at this
    exact a64_adrp_ok _ _ _ _ _ this hc.1 hc.2
  case adrGotPage =>
    simp only [a64Apply, Act.write.injEq] at h; subst h
    refine ⟨rfl, ?_⟩
    simp at hc hh
    simp [A64Use.denotes, field32_le32]
    intro rd v hold
    have := bind_field (by simpa using hold)
    rw [hld _ (by decide)] at this
    by_cases hv : s.viaSlot = true
    · simp only [hv, if_true] at hc hh ⊢
      rw [← a64SetAdrp_page (ld32 d) (x + 8#64) x p (page_slot x (by simpa using hh))]
      exact a64_adrp_ok _ _ _ _ _ this hc.1 hc.2
    · simp only [hv] at hc ⊢
      exact a64_adrp_ok _ _ _ _ _ this hc.1 hc.2
  case addAbsLo12 =>
    simp only [a64Apply, Act.write.injEq] at h; subst h
    refine ⟨rfl, ?_⟩
    simp [A64Use.denotes, field32_le32]
    intro rd rn o hold
    have := bind_field (by simpa using hold)
    rw [hld _ (by decide)] at this
    exact a64_add_ok _ _ _ _ _ this
  case call26 =>
    simp only [a64Apply, Act.write.injEq] at h; subst h
    refine ⟨rfl, ?_⟩
    simp at hc
    intro l t hold
    have := bind_field hold
    rw [hld _ (by decide)] at this
    simp only [field32_le32, Option.bind_some]
    simpa using a64_call_ok _ _ _ _ _ this hc.1 hc.2.1 hc.2.2.1 hc.2.2.2
  case jump26 =>
    simp only [a64Apply, Act.write.injEq] at h; subst h
    refine ⟨rfl, ?_⟩
    simp at hc
    intro l t hold
    have := bind_field hold
    rw [hld _ (by decide)] at this
    simp only [field32_le32, Option.bind_some]
    simpa using a64_jump_ok _ _ _ _ _ this hc.1 hc.2.1 hc.2.2.1 hc.2.2.2
  case ldst32Lo12 | ldst8Lo12 =>
    simp only [a64Apply, Act.write.injEq] at h; subst h
    refine ⟨rfl, ?_⟩
    simp at hh
    intro i hold
    have := bind_field hold
    rw [hld _ (by decide)] at this
    simp only [field32_le32, Option.bind_some]
    have e := a64_ldst_eq _ x _ this
    rw [e]
    simp [hh]
  case ldst64Lo12 =>
    simp only [a64Apply, Act.write.injEq] at h; subst h
    refine ⟨rfl, ?_⟩
    intro i hold
    have hi := hh i hold
    have hm := hc i hold
    have := bind_field hold
    rw [hld _ (by decide)] at this
    simp only [field32_le32, Option.bind_some]
    simp at hm
    rw [hi] at hm
    simpa using a64_ldst_ok _ _ _ this hi hm
  case ld64GotLo12 =>
    simp only [a64Apply] at h
    rw [hslot] at h
    by_cases hv : s.viaSlot = true
    · simp only [hv, if_true] at hc hh h ⊢
      simp only [Act.write.injEq] at h; subst h
      refine ⟨rfl, ?_⟩
      intro i hold
      have hi := hh i hold
      have hm := hc i hold
      have := bind_field hold
      rw [hld _ (by decide)] at this
      simp only [field32_le32, Option.bind_some]
      rw [hi] at hm
      simp only [BEq.rfl, Bool.or_true, Bool.and_true, if_true] at hm ⊢
      simpa using a64_ldst_ok _ _ _ this hi (by simpa using hm)
    · simp only [hv] at hc hh h ⊢
      simp only [Bool.false_eq_true, if_false, Act.write.injEq] at h hc hh ⊢; subst h
      refine ⟨rfl, ?_⟩
      intro i hold _ _
      have := bind_field hold
      rw [hld _ (by decide)] at this
      simp only [field32_le32, Option.bind_some]
      simpa using a64_ldrToAdd_ok _ _ _ this

/-- C26, partial.  Missing: the tool does not check that branches and pages are in reach
(`C26_violated_branch_truncated`), scales 8-bit and 32-bit accesses wrongly (`C26_violated_ldst`), takes
the page of the wrong word of a slot (`C26_violated_slot_page`), stops with success at the first local
thread-local symbol (`C26_violated_local_tls`) and accepts a field that overruns its section as on
x86-64.  Outside these situations, after a successful relocation of a section every instruction does
what it did with the intended address and the same registers, and nothing else has changed. -/
theorem C26_instructions_denote_partial (load : BitVec 64) (sec : RelSec) (syms : List Sym)
    (rs : List (Rela A64Rel)) (img : List Byte)
    (himg : sec.fileOff + sec.size ≤ img.length)
    (hin : ∀ r ∈ rs, r.offset + a64Width r ≤ sec.size)
    (hdis : rs.Pairwise fun a b => a.offset + a64Width a ≤ b.offset ∨ b.offset + a64Width b ≤ a.offset)
    (htls : ∀ r ∈ rs, ¬ ((symAt syms r.sym).typ = .tls ∧ (symAt syms r.sym).bind = .loc))
    (hok : (a64Relocate load sec syms rs img).2 = true) :
    let img' := (a64Relocate load sec syms rs img).1
    (∀ r ∈ rs, ∀ u, a64Use r.typ (symAt syms r.sym) = some u →
      let p := sec.addr + BitVec.ofNat 64 r.offset
      let x := a64Wanted load sec.isInfo r (symAt syms r.sym)
      let old := bytesAt img (sec.fileOff + r.offset) u.width
      u.canDenote p x old → a64Handled r (symAt syms r.sym) x old →
      u.denotes p x old (bytesAt img' (sec.fileOff + r.offset) u.width)) ∧
    (∀ k, (∀ r ∈ rs, k < sec.fileOff + r.offset ∨ sec.fileOff + r.offset + a64Width r ≤ k) →
      img'[k]? = img[k]?) := by
  intro img'
  have ns : ∀ r ∈ rs, ∀ d, a64Act load sec r (symAt syms r.sym) d ≠ .stop := by
    intro r hr d
    unfold a64Act
    dsimp only
    rw [if_neg (htls r hr)]
    unfold a64Apply
    cases r.typ <;> simp <;> split <;> simp
  obtain ⟨_, h2, h3⟩ := relocLoop_spec _ _ (a64_local load sec) sec syms img himg rs img rfl hin hdis ns hok
  refine ⟨?_, h3⟩
  intro r hr u hu p x old hc hh
  obtain ⟨_, bs, hb1, hb2⟩ := h2 r hr
  obtain ⟨hl, hd⟩ := a64_act_denotes load sec r _ _ bs u hu hb1 hc hh
  rw [← hl]
  have e : bytesAt img' (sec.fileOff + r.offset) bs.length = bs := hb2
  rw [e]
  exact hd

/-! Non-vacuity: `adrp x0`, `add x0, x0`, `bl`, `ldr x1, [x1]`. -/
namespace ExA64
def sec : RelSec := { fileOff := 4, size := 16, addr := 0x7f0000001000#64 }
def syms : List Sym :=
  [⟨0, 0, 0, .notype, .loc⟩, ⟨0x7f0000002348#64, 0, 1, .object, .glob⟩,
   ⟨0x7f0000000208#64, 0x7f1234567890#64, 0, .func, .glob⟩]
def rels : List (Rela A64Rel) :=
  [⟨0, .adrPrelPgHi21, 1, 0#64⟩, ⟨4, .addAbsLo12, 1, 0#64⟩, ⟨8, .call26, 2, 0#64⟩, ⟨12, .ldst64Lo12, 1, 0#64⟩]
def img : List Byte := [0, 0, 0, 0] ++ le32 0x90000000#32 ++ le32 0x91000000#32 ++ le32 0x94000000#32 ++ le32 0xf9400021#32

theorem ok : (a64Relocate 0#64 sec syms rels img).2 = true := by decide
example : sec.fileOff + sec.size ≤ img.length ∧ (∀ r ∈ rels, r.offset + a64Width r ≤ sec.size) ∧
    (rels.Pairwise fun a b => a.offset + a64Width a ≤ b.offset ∨ b.offset + a64Width b ≤ a.offset) ∧
    (∀ r ∈ rels, ¬ ((symAt syms r.sym).typ = .tls ∧ (symAt syms r.sym).bind = .loc)) := by
  refine ⟨by decide, by simp [rels, a64Width, sec], by simp [rels, a64Width], by simp [rels, syms]⟩
/-- the relocated pair computes the address of the variable -/
example : (field32 (bytesAt (a64Relocate 0#64 sec syms rels img).1 4 4)).bind (a64Adrp sec.addr) =
      some (0#5, 0x7f0000002000#64) ∧
    (field32 (bytesAt (a64Relocate 0#64 sec syms rels img).1 8 4)).bind a64AddImm = some (0#5, 0#5, 0x348#64) := by
  decide
end ExA64

/-- C26 is violated: a branch whose target is 256 MiB away is "relocated" to itself. -/
theorem C26_violated_branch_truncated :
    ∃ (sec : RelSec) (syms : List Sym) (r : Rela A64Rel) (img : List Byte),
      a64Use r.typ (symAt syms r.sym) = some .branch ∧ (a64Relocate 0#64 sec syms [r] img).2 = true ∧
      a64Wanted 0#64 sec.isInfo r (symAt syms r.sym) = sec.addr + 0x10000000#64 ∧
      (field32 (bytesAt (a64Relocate 0#64 sec syms [r] img).1 sec.fileOff 4)).bind (a64Branch sec.addr) =
        some (true, sec.addr) :=
  ⟨{ fileOff := 0, size := 8, addr := 0x10000#64 }, [⟨0x10010000#64, 0, 1, .func, .glob⟩],
    ⟨0, .call26, 0, 0#64⟩, le32 0x94000000#32 ++ le32 0xd65f03c0#32, rfl, by decide, by decide, by decide⟩

/-- C26 is violated: every 8-bit or 32-bit access to a variable that is not at the start of a page is
redirected to another address (whatever its alignment). -/
theorem C26_violated_ldst (load : BitVec 64) (sec : RelSec) (r : Rela A64Rel) (s : Sym) (img : List Byte)
    (ht : r.typ = .ldst8Lo12 ∨ r.typ = .ldst32Lo12) (hs : s.typ = .object) (hinfo : sec.isInfo = false)
    (hsym : r.sym = 0) (hin : r.offset + 4 ≤ sec.size) (himg : sec.fileOff + sec.size ≤ img.length)
    (i : A64Mem) (hi : (field32 (bytesAt img (sec.fileOff + r.offset) 4)).bind a64LdSt = some i)
    (hsz : i.size = 0 ∨ i.size = 2)
    (hx : low12 (s.value + r.addend) ≠ 0#64) :
    (a64Relocate load sec [s] [r] img).2 = true ∧
      ∃ j, (field32 (bytesAt (a64Relocate load sec [s] [r] img).1 (sec.fileOff + r.offset) 4)).bind a64LdSt = some j ∧
        j.offset ≠ low12 (s.value + r.addend) := by
  have hw := bind_field hi
  have hw' : a64LdSt (ld32 (img.drop (sec.fileOff + r.offset))) = some i := by
    have := ld32_take (img.drop (sec.fileOff + r.offset)) 4 (by omega)
    rw [← this]; exact hw
  have hact : a64Act load sec r s (img.drop (sec.fileOff + r.offset)) =
      .write (le32 (a64SetLdst (ld32 (img.drop (sec.fileOff + r.offset))) (s.value + r.addend))) := by
    rcases ht with ht | ht <;> simp [a64Act, a64Apply, ht, hs, hinfo]
  have hrel : a64Relocate load sec [s] [r] img =
      (pokeAt img (sec.fileOff + r.offset)
        (le32 (a64SetLdst (ld32 (img.drop (sec.fileOff + r.offset))) (s.value + r.addend))), true) := by
    simp only [a64Relocate, relocLoop, hsym, List.getD_cons_zero, hact]
    rw [if_neg (by omega)]
  rw [hrel]
  refine ⟨rfl, { i with offset := (low12 (s.value + r.addend) >>> 3) <<< i.size }, ?_, ?_⟩
  · have := bytesAt_pokeAt img (sec.fileOff + r.offset)
        (le32 (a64SetLdst (ld32 (img.drop (sec.fileOff + r.offset))) (s.value + r.addend))) (by rw [le32_length]; omega)
    rw [le32_length] at this
    simp only [this, field32_le32, Option.bind_some]
    exact a64_ldst_eq _ _ _ hw'
  · generalize s.value + r.addend = x at *
    intro hcon
    have hn := congrArg BitVec.toNat hcon
    have hf := and_fff x
    have hx' : (low12 x).toNat ≠ 0 := fun h => hx (BitVec.eq_of_toNat_eq (by simpa using h))
    unfold low12 at hn hx'
    rcases hsz with h | h <;> simp only [h] at hn
    · change ((x &&& 0xfff#64) >>> 3 <<< 0).toNat = _ at hn
      simp only [BitVec.toNat_shiftLeft, BitVec.toNat_ushiftRight, Nat.shiftRight_eq_div_pow, Nat.shiftLeft_eq, hf,
        Nat.reducePow, Nat.mul_one] at hn
      rw [hf] at hx'
      omega
    · change ((x &&& 0xfff#64) >>> 3 <<< 2).toNat = _ at hn
      simp only [BitVec.toNat_shiftLeft, BitVec.toNat_ushiftRight, Nat.shiftRight_eq_div_pow, Nat.shiftLeft_eq, hf] at hn
      omega

/-- C26 is violated for the 224th undefined symbol if it is a variable: its jump table entry starts at
offset `0xff8` of the page, `ADRP` gets that page while the slot is in the next one. -/
theorem C26_violated_slot_page :
    ∃ (sec : RelSec) (syms : List Sym) (img : List Byte),
      (a64Relocate 0#64 sec syms [⟨0, .adrGotPage, 0, 0#64⟩, ⟨4, .ld64GotLo12, 0, 0#64⟩] img).2 = true ∧
      (symAt syms 0).viaSlot = true ∧
      -- entry 223 of a table at offset 504 (+ 16 bytes of table header) of page-aligned patch memory
      (symAt syms 0).value = 0x500000#64 + 504#64 + 16#64 + 16#64 * 223#64 ∧
      ∃ v i, (field32 (bytesAt (a64Relocate 0#64 sec syms [⟨0, .adrGotPage, 0, 0#64⟩, ⟨4, .ld64GotLo12, 0, 0#64⟩] img).1
          sec.fileOff 4)).bind (a64Adrp sec.addr) = some (0#5, v) ∧
        (field32 (bytesAt (a64Relocate 0#64 sec syms [⟨0, .adrGotPage, 0, 0#64⟩, ⟨4, .ld64GotLo12, 0, 0#64⟩] img).1
          (sec.fileOff + 4) 4)).bind a64LdSt = some i ∧
        v + i.offset ≠ (symAt syms 0).value + 8#64 :=
  ⟨{ fileOff := 0, size := 8, addr := 0x510000#64 }, [⟨0x500ff8#64, 0x7f1234567890#64, 0, .object, .glob⟩],
    le32 0x90000000#32 ++ le32 0xf9400000#32, by decide, by decide, by decide,
    0x500000#64, ⟨3, 1, 0, 0, 0⟩, by decide, by decide, by decide⟩

/-- C26 is violated: a relocation against a local thread-local symbol ends the processing of the
section with success; the relocations after it are never applied. -/
theorem C26_violated_local_tls (load : BitVec 64) (sec : RelSec) (syms : List Sym) (r : Rela A64Rel)
    (rs : List (Rela A64Rel)) (img : List Byte) (hin : r.offset < sec.size)
    (hs : (symAt syms r.sym).typ = .tls ∧ (symAt syms r.sym).bind = .loc) :
    a64Relocate load sec syms (r :: rs) img = (img, true) := by
  have : a64Act load sec r (symAt syms r.sym) (img.drop (sec.fileOff + r.offset)) = .stop := by
    unfold a64Act; dsimp only; rw [if_pos hs]
  simp only [a64Relocate, relocLoop]
  rw [if_neg (by omega)]
  simp only [symAt] at this
  rw [this]

end Verif
