import Verif.Proof.JumpTable
import Verif.Props.RelocRiscv
/-
C29: calls to library functions go through the jump table to the right function.
-/
namespace Verif
open Cpu

/-- The patch refers to a function or variable of a shared library: a global undefined symbol of that
type (`SHN_UNDEF` is 0). -/
def PSym.FromLibrary (s : PSym) : Prop :=
  s.sym.shndx = 0 ∧ s.sym.bind = .glob ∧ (s.sym.typ = .func ∨ s.sym.typ = .object)

theorem PSym.lib_iff (s : PSym) : s.lib = true ↔ s.FromLibrary := by
  unfold PSym.lib PSym.FromLibrary Sym.wanted
  simp only [Bool.and_eq_true, Bool.or_eq_true, beq_iff_eq, and_assoc]

theorem countUndefined_ge (syms : List PSym) : (syms.drop 1).countP PSym.lib ≤ countUndefined syms := by
  unfold countUndefined
  apply List.countP_mono_left
  intro s _ h
  unfold PSym.lib at h
  simp only [Bool.and_eq_true] at h
  exact h.1

theorem countP_take_lt (p : PSym → Bool) : ∀ (l : List PSym) (k1 k2 : Nat) (s : PSym), l[k1]? = some s → p s = true →
    k1 < k2 → (l.take k1).countP p < (l.take k2).countP p
  | [], k1, _, _, h, _, _ => by simp at h
  | x :: l, 0, k2 + 1, s, h, hp, _ => by
    simp only [List.getElem?_cons_zero, Option.some.injEq] at h
    subst h
    simp [List.countP_cons, hp]
  | x :: l, k1 + 1, k2 + 1, s, h, hp, hlt => by
    simp only [List.getElem?_cons_succ] at h
    have := countP_take_lt p l k1 k2 s h hp (by omega)
    simp only [List.take_succ_cons, List.countP_cons]
    omega
  | _ :: _, k1, 0, _, _, _, h => by omega

/-- C29.  When the symbols of a patch have been resolved, there is an assignment of offsets inside the
jump table to the library symbols such that: different symbols have disjoint entries, all inside the
table; the symbol's value is the address of its entry; and whenever the target's memory holds the table
at the place the tool writes it to, executing from the symbol's value leads to the address the symbol
was resolved to, changing only scratch registers (RISC-V: the address must be even, as addresses of
instructions are).  On x86-64 and AArch64 the second word of the entry is that address, so that the entry also
serves as a slot of the global offset table.  Partial: on RISC-V, relocations of library variables overwrite entries afterwards
(`C28_violated_slot_reuse`, `C29_violated_slot_reuse`), and an undefined symbol without type gets no entry
(`C29_violated_notype`). -/
theorem C29_library_calls_partial (a : Arch) (junk : Nat → BitVec 32) (resolve : CStr → BitVec 64) (kpta : BitVec 64)
    (jmpOffset elfOffset : Nat) (load : BitVec 64) (secs : List PSec) (syms : List PSym)
    (syms' : List Sym) (t : Option JmpTable)
    (h : kpatchResolve a junk resolve kpta jmpOffset elfOffset load secs syms = some (syms', t))
    (hu : ∃ k s, syms[k + 1]? = some s ∧ s.FromLibrary) :
    ∃ (jt : JmpTable) (off : Nat → Nat), t = some jt ∧
      (jt.bytes a).length = jmpTableSize a (countUndefined syms) ∧
      (∀ k s, syms[k + 1]? = some s → s.FromLibrary →
        (16 ≤ off k ∧ 8 ∣ off k) ∧ off k + a.jmpEntrySize ≤ (jt.bytes a).length ∧
        (∀ k' s', syms[k' + 1]? = some s' → s'.FromLibrary → k' ≠ k →
          off k + a.jmpEntrySize ≤ off k' ∨ off k' + a.jmpEntrySize ≤ off k) ∧
        ∃ x, syms'[k + 1]? = some x ∧ x.size = resolve s.name ∧ resolve s.name ≠ 0#64 ∧
          x.value = kpta + BitVec.ofNat 64 jmpOffset + BitVec.ofNat 64 (off k) ∧
          ∀ m : Memory, InMemory m (kpta + BitVec.ofNat 64 jmpOffset) (jt.bytes a) →
            (a = .riscv64 → resolve s.name &&& ~~~1#64 = resolve s.name) →
            Reaches (archStep a m) (archScratch a) x.value (resolve s.name) ∧
              (a = .x86 ∨ a = .aarch64 → word64 m (x.value + 8#64) = some (resolve s.name))) := by
  unfold kpatchResolve at h
  cases syms with
  | nil => obtain ⟨k, s, hk, _⟩ := hu; simp at hk
  | cons s0 ss =>
    have hcount : countUndefined (s0 :: ss) ≠ 0 := by
      obtain ⟨k, s, hk, hs⟩ := hu
      have hm : s ∈ ss := List.mem_of_getElem? (by simpa using hk)
      have : 0 < ss.countP PSym.lib := List.countP_pos_iff.2 ⟨s, hm, s.lib_iff.2 hs⟩
      have := countUndefined_ge (s0 :: ss)
      simp only [List.drop_succ_cons, List.drop_zero] at this
      omega
    dsimp only at h
    rw [if_pos hcount] at h
    generalize hsa : (fun i => if i = 0 then ((secs[0]?).map PSec.addr).getD 0#64
      else ((secs[i]?).map (resolveSection kpta elfOffset load)).getD 0#64) = secAddr at h
    cases hr : resolveSyms a junk resolve secAddr (kpta + BitVec.ofNat 64 jmpOffset) 1 ss
        (some (newJmpTable a (countUndefined (s0 :: ss)))) with
    | none => rw [hr] at h; simp at h
    | some q =>
      obtain ⟨ss', t'⟩ := q
      rw [hr] at h
      simp only [Option.some.injEq, Prod.mk.injEq] at h
      obtain ⟨rfl, rfl⟩ := h
      obtain ⟨_, _, h1, _⟩ := resolveSyms_spec _ _ _ _ _ _ _ _ _ _ hr
      obtain ⟨jt, e1, e2, e3, e4, e5, e6⟩ := h1 _ rfl (by simp [newJmpTable])
      have hbl : (jt.bytes a).length = jmpTableSize a (countUndefined (s0 :: ss)) := by
        unfold JmpTable.bytes
        simp only [List.length_append, e3, le32_length, jmpTableSize, newJmpTable, List.length_replicate]
      refine ⟨jt, fun k => 16 + ((ss.take k).countP PSym.lib) * a.jmpEntrySize, e1, hbl, ?_⟩
      intro k s hk hs
      simp only [List.getElem?_cons_succ] at hk
      have hl := s.lib_iff.2 hs
      obtain ⟨x, j, g1, g2, g3, g4, g5, g6⟩ := e6 k s hk hl
      simp only [newJmpTable, Nat.zero_add] at g4 g5 g6 e2
      refine ⟨⟨by dsimp only; omega, ?_⟩, ?_, ?_, x, by simpa using g1, g2, g3, g5, ?_⟩
      · exact Nat.dvd_add (by decide) (Nat.dvd_trans (by cases a <;> decide) (Nat.dvd_mul_left _ _))
      · rw [hbl]
        unfold jmpTableSize
        have := Nat.mul_le_mul_right a.jmpEntrySize g4
        rw [Nat.succ_mul] at this
        dsimp only; omega
      · intro k' s' hk' hs' hne
        simp only [List.getElem?_cons_succ] at hk'
        have hl' := s'.lib_iff.2 hs'
        dsimp only
        rcases Nat.lt_or_gt_of_ne hne with hlt | hlt
        · right
          have := Nat.mul_le_mul_right a.jmpEntrySize (countP_take_lt PSym.lib ss k' k s' hk' hl' hlt)
          rw [Nat.succ_mul] at this
          omega
        · left
          have := Nat.mul_le_mul_right a.jmpEntrySize (countP_take_lt PSym.lib ss k k' s hk hl hlt)
          rw [Nat.succ_mul] at this
          omega
      · intro m hm heven
        have hent : InMemory m x.value (jmpEntry a j (resolve s.name)) := by
          rw [g5]
          apply hm.slice
          rw [jmpEntry_length, ← g6]
          unfold JmpTable.bytes bytesAt
          rw [← List.drop_drop]
          congr 2
        refine ⟨entry_reaches a m _ _ j heven hent, ?_⟩
        rintro (rfl | rfl) <;> exact word64_le64 (hent.slice 8 (r := le64 (resolve s.name)) rfl)

/-- C29: the table is always large enough: resolution fails only for a symbol of an unsupported type or
a library symbol that no library defines. -/
theorem C29_table_large_enough (a : Arch) (junk : Nat → BitVec 32) (resolve : CStr → BitVec 64) (kpta : BitVec 64)
    (jmpOffset elfOffset : Nat) (load : BitVec 64) (secs : List PSec) (syms : List PSym)
    (htyp : ∀ s ∈ syms.drop 1, s.sym.typ ≠ .ifunc ∧ s.sym.typ ≠ .other)
    (hres : ∀ s ∈ syms.drop 1, s.FromLibrary → resolve s.name ≠ 0#64)
    (hplace : kpta.toNat + jmpOffset + jmpTableSize a (countUndefined syms) ≤ 2 ^ 64) :
    (kpatchResolve a junk resolve kpta jmpOffset elfOffset load secs syms).isSome := by
  unfold kpatchResolve
  cases syms with
  | nil => rfl
  | cons s0 ss =>
    simp only [List.drop_succ_cons, List.drop_zero] at htyp hres
    have hge := countUndefined_ge (s0 :: ss)
    simp only [List.drop_succ_cons, List.drop_zero] at hge
    dsimp only
    generalize hsa : (fun i => if i = 0 then ((secs[0]?).map PSec.addr).getD 0#64
      else ((secs[i]?).map (resolveSection kpta elfOffset load)).getD 0#64) = secAddr
    by_cases hz : countUndefined (s0 :: ss) ≠ 0
    · rw [if_pos hz]
      have := resolveSyms_succeeds a junk resolve secAddr (kpta + BitVec.ofNat 64 jmpOffset) ss 1
        (newJmpTable a (countUndefined (s0 :: ss))) htyp (fun s hs hl => hres s hs (s.lib_iff.1 hl))
        (by simp only [newJmpTable]; omega)
        (by
          intro e he hc
          simp only [newJmpTable] at he
          have h1 := congrArg BitVec.toNat hc
          have h2 := Nat.mul_le_mul_right a.jmpEntrySize (Nat.succ_le_of_lt he)
          have h3 : 0 < a.jmpEntrySize := by cases a <;> decide
          unfold jmpTableSize at hplace
          rw [Nat.succ_mul] at h2
          generalize e * a.jmpEntrySize = x at *
          generalize countUndefined (s0 :: ss) * a.jmpEntrySize = y at *
          simp only [BitVec.toNat_add, BitVec.toNat_ofNat] at h1
          have := kpta.isLt
          omega)
      cases hr : resolveSyms a junk resolve secAddr (kpta + BitVec.ofNat 64 jmpOffset) 1 ss
        (some (newJmpTable a (countUndefined (s0 :: ss)))) with
      | none => rw [hr] at this; simp at this
      | some q => simp
    · rw [if_neg hz]
      have hnone : ∀ s ∈ ss, s.lib = false := by
        have h0 : ss.countP PSym.lib = 0 := by omega
        rw [List.countP_eq_zero] at h0
        intro s hs
        simpa using h0 s hs
      have key : ∀ (l : List PSym) (i : Nat) (t : Option JmpTable), (∀ s ∈ l, s.lib = false) →
          (∀ s ∈ l, s.sym.typ ≠ .ifunc ∧ s.sym.typ ≠ .other) →
          (resolveSyms a junk resolve secAddr (kpta + BitVec.ofNat 64 jmpOffset) i l t).isSome := by
        intro l
        induction l with
        | nil => intros; rfl
        | cons s l ih =>
          intro i t hl ht
          unfold resolveSyms
          have h1 := ht s (by simp)
          have hlf := hl s (by simp)
          have hs : ∃ s' t', symbolResolve a (junk i) resolve secAddr (kpta + BitVec.ofNat 64 jmpOffset) s t =
              some (s', t') := by
            unfold symbolResolve
            cases hft : s.sym.typ <;> dsimp only
            case func | object =>
              have hnw : ¬ s.sym.wanted = true := by
                intro hw; unfold PSym.lib at hlf; simp [hw, hft] at hlf
              rw [if_neg hnw]
              exact ⟨_, _, rfl⟩
            case ifunc => exact absurd hft h1.1
            case other => exact absurd hft h1.2
            all_goals exact ⟨_, _, rfl⟩
          obtain ⟨s', t', e⟩ := hs
          rw [e]
          have := ih (i + 1) t' (fun x hx => hl x (by simp [hx])) (fun x hx => ht x (by simp [hx]))
          simp only
          cases hr : resolveSyms a junk resolve secAddr (kpta + BitVec.ofNat 64 jmpOffset) (i + 1) l t' with
          | none => rw [hr] at this; simp at this
          | some q => simp
      have := key ss 1 none hnone htyp
      cases hr : resolveSyms a junk resolve secAddr (kpta + BitVec.ofNat 64 jmpOffset) 1 ss none with
      | none => rw [hr] at this; simp at this
      | some q => simp

/-! Non-vacuity: a patch using `puts`, `errno_v` and a local function. -/
namespace ExJump
def puts : CStr := [0x70#8]
def errv : CStr := [0x65#8]
def resolve : CStr → BitVec 64 := fun n => if n = puts then 0x7f00_0000_1000#64 else if n = errv then 0x7f00_0000_2000#64 else 0#64
def secs : List PSec := [⟨false, 0#64, 0⟩, ⟨false, 0#64, 0x40⟩]
def syms : List PSym :=
  [⟨[], ⟨0, 0, 0, .notype, .loc⟩⟩, ⟨puts, ⟨0, 0, 0, .func, .glob⟩⟩, ⟨[0x66#8], ⟨8#64, 0, 1, .func, .loc⟩⟩,
   ⟨errv, ⟨0, 0, 0, .object, .glob⟩⟩]
example : ∃ r, kpatchResolve .riscv64 (fun _ => 0#32) resolve 0x500000#64 504 4096 0x400000#64 secs syms = some r ∧
    r.1.map Sym.value = [0#64, 0x500208#64, 0x501048#64, 0x500220#64] := by
  refine ⟨_, rfl, ?_⟩
  decide
example : ∃ k s, syms[k + 1]? = some s ∧ s.FromLibrary := ⟨0, _, rfl, rfl, rfl, Or.inl rfl⟩
end ExJump

/-- C29 is violated for an undefined global symbol without type: resolution succeeds, the symbol keeps
the value 0 and no library is consulted, although one defines the name. -/
theorem C29_violated_notype :
    ∃ (resolve : CStr → BitVec 64) (syms : List PSym) (s : PSym) (syms' : List Sym) (t : Option JmpTable),
      syms[1]? = some s ∧ s.sym.shndx = 0 ∧ s.sym.bind = .glob ∧ resolve s.name = 0x7f0000001000#64 ∧
      kpatchResolve .x86 (fun _ => 0#32) resolve 0x500000#64 504 4096 0x400000#64 [⟨false, 0#64, 0⟩] syms = some (syms', t) ∧
      (syms'[1]?).map Sym.value = some 0#64 :=
  ⟨fun _ => 0x7f0000001000#64, [⟨[], ⟨0, 0, 0, .notype, .loc⟩⟩, ⟨[0x70#8], ⟨0, 0, 0, .notype, .glob⟩⟩], _, _, _,
    rfl, rfl, rfl, rfl, rfl, by decide⟩

/-- C29 is violated on RISC-V: after a patch with two `lui` of a library variable has been resolved and
relocated successfully, the jump table entry of a library function does not execute any more: its jump
has been overwritten with the value of the variable. -/
theorem C29_violated_slot_reuse :
    ∃ (syms : List PSym) (rs : List (Rela RvRel)) (sec : RelSec) (img : List Byte) (syms' : List Sym) (jt : JmpTable),
      kpatchResolve .riscv64 (fun _ => 0#32) ExJump.resolve 0x500000#64 504 4096 0x400000#64 ExJump.secs syms =
        some (syms', some jt) ∧
      (syms'[2]?).map Sym.size = some 0x7f0000001000#64 ∧ (syms'[2]?).map Sym.value = some 0x500220#64 ∧
      (rvRelocate 0x400000#64 (fun _ => some 0#64) 0x5001f8#64 sec rs
        { syms := syms', jtab := jt.bytes .riscv64, img := img }).2 = true ∧
      ∀ m : Memory, InMemory m 0x5001f8#64 (rvRelocate 0x400000#64 (fun _ => some 0#64) 0x5001f8#64 sec rs
          { syms := syms', jtab := jt.bytes .riscv64, img := img }).1.jtab →
        word32 m 0x500228#64 = some 0#32 := by
  refine ⟨[⟨[], ⟨0, 0, 0, .notype, .loc⟩⟩, ⟨ExJump.errv, ⟨0, 0, 0, .object, .glob⟩⟩, ⟨ExJump.puts, ⟨0, 0, 0, .func, .glob⟩⟩],
    [⟨0, .hi20, 1, 0#64⟩, ⟨4, .hi20, 1, 0#64⟩], { fileOff := 0, size := 8, addr := 0x501040#64 },
    le32 0x00000537#32 ++ le32 0x00000537#32, _, _, rfl, by decide, by decide, by decide, ?_⟩
  intro m hm
  have := word32_le32 (hm.slice 48 (r := le32 0#32) (by decide))
  exact this

end Verif
