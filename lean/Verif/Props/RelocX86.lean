import Verif.Proof.Reloc
/-
C25: relocations of x86-64 patches denote the intended address.
-/
namespace Verif
open Cpu

/-- How the instruction or datum of each relocation type uses the field (psABI, "Relocation Types");
`none` for the types without a field and for types the tool does not know. -/
def x86Use : X86Rel → Option X86Use
  | .r64 => some .abs64
  | .r32 => some .abs32
  | .r32s => some .abs32s
  | .gottpoff | .gotpcrel | .rexGotpcrelx | .gotpcrelx | .pc32 => some .rel32
  | _ => none

/-- Relocation types that refer to a pointer slot rather than to the symbol itself. -/
def x86IsGot : X86Rel → Bool
  | .gottpoff | .gotpcrel | .rexGotpcrelx | .gotpcrelx => true
  | _ => false

/-- The address the patch author means.  `S + A`; in `.kpatch.info` the real address of an undefined
symbol (kept in its size after resolution); for a slot reference to an undefined symbol the second word
of the symbol's jump table entry (which holds its address, C29); for a slot reference to a thread-local
variable the slot of the original program at `A - 4` (link-time). -/
def x86Wanted (load : BitVec 64) (inInfo : Bool) (r : Rela X86Rel) (s : Sym) : BitVec 64 :=
  let plain := if inInfo && s.isUndef then s.size else s.value + r.addend
  if x86IsGot r.typ then
    if s.isUndef then plain + 8#64
    else if s.typ = .tls then load + r.addend - 4#64
    else plain
  else plain

/-- Width of the field of a relocation. -/
def x86Width (r : Rela X86Rel) : Nat :=
  match x86Use r.typ with
  | some u => u.width
  | none => 0

theorem x86_local (load : BitVec 64) (sec : RelSec) : LocalAct (x86Act load sec) x86Width where
  reads := by intro r s d d' _; rfl
  writes := by
    intro r s d bs h
    unfold x86Act at h
    unfold x86Width
    cases ht : r.typ <;> rw [ht] at h <;> simp [x86Use, X86Use.width] at h ⊢ <;> subst h <;>
      first | rfl | simp [le64_length, le32_length]

theorem x86_act_denotes (load : BitVec 64) (sec : RelSec) (r : Rela X86Rel) (s : Sym) (d bs : List Byte) (u : X86Use)
    (hu : x86Use r.typ = some u) (h : x86Act load sec r s d = .write bs)
    (hc : u.canDenote (sec.addr + BitVec.ofNat 64 r.offset) (x86Wanted load sec.isInfo r s)) :
    bs.length = u.width ∧
      u.denotes (sec.addr + BitVec.ofNat 64 r.offset) bs = some (x86Wanted load sec.isInfo r s) := by
  unfold x86Act at h
  generalize hp : sec.addr + BitVec.ofNat 64 r.offset = p at *
  have rel : ∀ a : BitVec 64, -(2 ^ 31 : Int) ≤ (a - p).toInt ∧ (a - p).toInt < 2 ^ 31 →
      X86Use.rel32.denotes p (le32 ((a - p).setWidth 32)) = some a := by
    intro a ha
    simp only [X86Use.denotes, field32_le32, Option.map_some, Option.some.injEq]
    rw [signExtend_setWidth_of_fits _ (by omega) (by omega) ha.1 ha.2, BitVec.add_comm, BitVec.sub_add_cancel]
  unfold x86Wanted at *
  generalize hpl : (if (sec.isInfo && s.isUndef) = true then s.size else s.value + r.addend) = plain at *
  have htls : r.addend + load - 4#64 = load + r.addend - 4#64 := by rw [BitVec.add_comm r.addend load]
  cases ht : r.typ <;> rw [ht] at h hu hc <;>
    simp only [x86Use, reduceCtorEq, Option.some.injEq] at hu <;> subst hu <;>
    simp only [Act.write.injEq] at h <;> subst h <;> simp only [x86IsGot, if_true, Bool.false_eq_true, if_false] at hc ⊢
  case r64 => exact ⟨rfl, field64_le64 _⟩
  case r32 =>
    refine ⟨rfl, ?_⟩
    simp only [X86Use.denotes, field32_le32, Option.map_some, Option.some.injEq]
    apply BitVec.eq_of_toNat_eq
    simp only [X86Use.canDenote] at hc
    simp; omega
  case r32s =>
    refine ⟨rfl, ?_⟩
    simp only [X86Use.denotes, field32_le32, Option.map_some, Option.some.injEq]
    exact signExtend_setWidth_of_fits _ (by omega) (by omega) hc.1 hc.2
  all_goals first
    | exact ⟨rfl, rel _ hc⟩
    | (rw [htls]; exact ⟨rfl, rel _ hc⟩)

/-- C25, partial: the tool does not check that the address can be expressed by the field
(`C25_violated_truncated`) nor that the field ends inside the section (`C25_violated_overrun`), and
reports success for `TPOFF` relocations it does not apply (`C25_violated_tpoff`).  With the first two
assumed and for the types with a field: after a successful relocation of a section every field denotes
the intended address at its final place, and no other byte of the image has changed. -/
theorem C25_fields_denote_partial (load : BitVec 64) (sec : RelSec) (syms : List Sym)
    (rs : List (Rela X86Rel)) (img : List Byte)
    (himg : sec.fileOff + sec.size ≤ img.length)
    (hin : ∀ r ∈ rs, r.offset + x86Width r ≤ sec.size)
    (hdis : rs.Pairwise fun a b => a.offset + x86Width a ≤ b.offset ∨ b.offset + x86Width b ≤ a.offset)
    (hok : (x86Relocate load sec syms rs img).2 = true) :
    let img' := (x86Relocate load sec syms rs img).1
    (∀ r ∈ rs, ∀ u, x86Use r.typ = some u →
      let p := sec.addr + BitVec.ofNat 64 r.offset
      let a := x86Wanted load sec.isInfo r (symAt syms r.sym)
      u.canDenote p a → u.denotes p (bytesAt img' (sec.fileOff + r.offset) u.width) = some a) ∧
    (∀ k, (∀ r ∈ rs, k < sec.fileOff + r.offset ∨ sec.fileOff + r.offset + x86Width r ≤ k) →
      img'[k]? = img[k]?) := by
  intro img'
  have ns : ∀ r ∈ rs, ∀ d, x86Act load sec r (symAt syms r.sym) d ≠ .stop := by
    intro r _ d
    unfold x86Act
    cases r.typ <;> simp
  obtain ⟨_, h2, h3⟩ := relocLoop_spec _ _ (x86_local load sec) sec syms img himg rs img rfl hin hdis ns hok
  refine ⟨?_, h3⟩
  intro r hr u hu p a hc
  obtain ⟨_, bs, hb1, hb2⟩ := h2 r hr
  obtain ⟨hl, hd⟩ := x86_act_denotes load sec r _ _ bs u hu hb1 hc
  rw [← hd, ← hl]
  exact congrArg _ hb2

/-- C25: relocations of an unknown type and places outside the section are refused. -/
theorem C25_unknown_refused (load : BitVec 64) (sec : RelSec) (syms : List Sym)
    (rs : List (Rela X86Rel)) (img : List Byte) (r : Rela X86Rel) (hr : r ∈ rs)
    (hbad : (∃ n, r.typ = .other n) ∨ sec.size ≤ r.offset) :
    (x86Relocate load sec syms rs img).2 = false := by
  unfold x86Relocate
  induction rs generalizing img with
  | nil => simp at hr
  | cons x rs ih =>
    simp only [relocLoop]
    by_cases hge : x.offset ≥ sec.size
    · rw [if_pos hge]
    rw [if_neg hge]
    rcases List.mem_cons.1 hr with rfl | hr
    · rcases hbad with ⟨n, hn⟩ | hb
      · simp [x86Act, hn]
      · omega
    · cases hact : x86Act load sec x (syms.getD x.sym ⟨0, 0, 0, .notype, .loc⟩) (img.drop (sec.fileOff + x.offset)) with
      | fail => rfl
      | stop =>
        exfalso
        unfold x86Act at hact
        cases ht : x.typ <;> simp [ht] at hact
      | write bs => exact ih _ hr

/-! Non-vacuity: a section of 16 bytes at file offset 4 with a call, a slot reference to an undefined
symbol and an address constant. -/
namespace ExX86
def sec : RelSec := { fileOff := 4, size := 20, addr := 0x7f0000001000#64 }
def syms : List Sym :=
  [⟨0, 0, 0, .notype, .loc⟩, ⟨0x7f0000002000#64, 0, 1, .func, .glob⟩,
   ⟨0x7f0000000208#64, 0x7f1234567890#64, 0, .func, .glob⟩]
def rels : List (Rela X86Rel) :=
  [⟨1, .pc32, 1, -4#64⟩, ⟨7, .gotpcrelx, 2, -4#64⟩, ⟨12, .r64, 1, 0x10#64⟩]
def img : List Byte := List.replicate 30 0xcc#8

theorem ok : (x86Relocate 0#64 sec syms rels img).2 = true := by decide
example : sec.fileOff + sec.size ≤ img.length ∧ (∀ r ∈ rels, r.offset + x86Width r ≤ sec.size) ∧
    (rels.Pairwise fun a b => a.offset + x86Width a ≤ b.offset ∨ b.offset + x86Width b ≤ a.offset) := by
  refine ⟨by decide, by simp [rels, x86Width, x86Use, X86Use.width, sec], ?_⟩
  simp [rels, x86Width, x86Use, X86Use.width]
example : X86Use.rel32.canDenote (sec.addr + 1#64) (x86Wanted 0#64 false ⟨1, .pc32, 1, -4#64⟩ (symAt syms 1)) := by
  simp only [X86Use.canDenote]; decide
end ExX86

/-- C25 is violated: `S + A` out of reach of a 32-bit displacement is stored truncated and reported as
success; the field then denotes an address 8 GiB away from the symbol. -/
theorem C25_violated_truncated :
    ∃ (sec : RelSec) (syms : List Sym) (r : Rela X86Rel) (img : List Byte),
      x86Use r.typ = some .rel32 ∧ (x86Relocate 0#64 sec syms [r] img).2 = true ∧
      X86Use.rel32.denotes (sec.addr + BitVec.ofNat 64 r.offset)
        (bytesAt (x86Relocate 0#64 sec syms [r] img).1 (sec.fileOff + r.offset) 4) ≠
        some (x86Wanted 0#64 sec.isInfo r (symAt syms r.sym)) :=
  ⟨{ fileOff := 0, size := 8, addr := 0x10000#64 }, [⟨0x200010000#64, 0, 1, .func, .glob⟩],
    ⟨0, .pc32, 0, 0#64⟩, List.replicate 8 0, rfl, by decide, by decide⟩

/-- C25 is violated: a relocation at the last byte of a section is accepted and changes three bytes
behind the section. -/
theorem C25_violated_overrun :
    ∃ (sec : RelSec) (syms : List Sym) (r : Rela X86Rel) (img : List Byte),
      sec.fileOff + sec.size ≤ img.length ∧ (x86Relocate 0#64 sec syms [r] img).2 = true ∧
      ∃ k, sec.fileOff + sec.size ≤ k ∧ (x86Relocate 0#64 sec syms [r] img).1[k]? ≠ img[k]? :=
  ⟨{ fileOff := 0, size := 8, addr := 0x10000#64 }, [⟨0x10203040#64, 0, 1, .func, .glob⟩],
    ⟨7, .r32, 0, 0#64⟩, List.replicate 16 0, by decide, by decide, 8, by decide, by decide⟩

/-- C25 is violated: a `TPOFF32` relocation is reported as applied but the field is left as it was,
whatever the symbol is. -/
theorem C25_violated_tpoff (load : BitVec 64) (sec : RelSec) (syms : List Sym) (off i : Nat) (a : BitVec 64)
    (img : List Byte) (h : off < sec.size) :
    x86Relocate load sec syms [⟨off, .tpoff32, i, a⟩] img = (img, true) := by
  simp [x86Relocate, relocLoop, x86Act, pokeAt_nil, h]

end Verif
