import Verif.Spec.JumpExec
import Verif.Model.Symbols
import Verif.Proof.Reloc
/-
Execution of jump table entries and the state of the table after any number of additions.
-/
namespace Verif
open Cpu

/-- The memory holds the bytes `bs` from address `a` on. -/
def InMemory (m : Memory) (a : BitVec 64) (bs : List Byte) : Prop :=
  ∀ i b, bs[i]? = some b → m (a + BitVec.ofNat 64 i) = some b

theorem InMemory.append_right {m : Memory} {a : BitVec 64} {l r : List Byte} (h : InMemory m a (l ++ r)) :
    InMemory m (a + BitVec.ofNat 64 l.length) r := by
  intro i b hb
  have := h (l.length + i) b (by rw [List.getElem?_append_right (by omega)]; simpa using hb)
  rw [BitVec.add_assoc, ← BitVec.ofNat_add]
  exact this

theorem InMemory.append_left {m : Memory} {a : BitVec 64} {l r : List Byte} (h : InMemory m a (l ++ r)) :
    InMemory m a l := by
  intro i b hb
  apply h i b
  rw [List.getElem?_append_left]
  · exact hb
  · by_contra hc
    rw [List.getElem?_eq_none (by omega)] at hb
    simp at hb

theorem InMemory.slice {m : Memory} {a : BitVec 64} {l r : List Byte} (h : InMemory m a l) (off : Nat)
    (hr : bytesAt l off r.length = r) : InMemory m (a + BitVec.ofNat 64 off) r := by
  intro i b hb
  have hi : i < r.length := by
    by_contra hc
    rw [List.getElem?_eq_none (by omega)] at hb
    simp at hb
  have : l[off + i]? = some b := by
    rw [← hb, ← hr]
    unfold bytesAt
    rw [List.getElem?_take_of_lt (by omega), List.getElem?_drop]
  rw [BitVec.add_assoc, ← BitVec.ofNat_add]
  exact h _ _ this

theorem word32_le32 {m : Memory} {a : BitVec 64} {w : BitVec 32} (h : InMemory m a (le32 w)) :
    word32 m a = some w := by
  have h0 := h 0 _ rfl
  have h1 := h 1 _ rfl
  have h2 := h 2 _ rfl
  have h3 := h 3 _ rfl
  simp only [BitVec.ofNat_eq_ofNat, BitVec.add_zero] at h0 h1 h2 h3
  unfold word32
  rw [h0, h1, h2, h3]
  simp only [fetch32_le32]

theorem word64_le64 {m : Memory} {a : BitVec 64} {w : BitVec 64} (h : InMemory m a (le64 w)) :
    word64 m a = some w := by
  unfold word64
  have h1 := word32_le32 h.append_left
  have h2 := word32_le32 h.append_right
  have e : (le32 (w.extractLsb' 0 32)).length = 4 := rfl
  rw [e] at h2
  rw [h1, h2]
  have := field64_le64 w
  simp only [le64, le32, List.cons_append, List.nil_append, field64, fetch32_le32] at this
  exact this

theorem x86_entry_reaches (m : Memory) (pc addr : BitVec 64) (junk : BitVec 32)
    (h : InMemory m pc (jmpEntry .x86 junk addr)) : Reaches (x86Step m) [] pc addr := by
  intro regs
  refine ⟨1, regs, ?_, fun _ _ => rfl⟩
  have h0 := h 0 0xff#8 rfl
  have h1 := h 1 0x25#8 rfl
  have h2 : word32 m (pc + 2#64) = some 2#32 := by
    apply word32_le32
    exact h.slice 2 (r := le32 2#32) rfl
  have h8 : word64 m (pc + 8#64) = some addr := word64_le64 (h.slice 8 (r := le64 addr) rfl)
  simp only [BitVec.ofNat_eq_ofNat, BitVec.add_zero] at h0 h1
  show (some (pc, regs)).bind (x86Step m) = _
  rw [Option.bind_some]
  unfold x86Step
  simp only [h0, h1, h2]
  have e : pc + 6#64 + (2#32).signExtend 64 = pc + 8#64 := by
    rw [BitVec.add_assoc]; rfl
  rw [e, h8]
  rfl

theorem a64_entry_reaches (m : Memory) (pc addr : BitVec 64) (junk : BitVec 32)
    (h : InMemory m pc (jmpEntry .aarch64 junk addr)) : Reaches (a64Step m) [17#5] pc addr := by
  intro regs
  refine ⟨2, regs.set 17#5 addr, ?_, ?_⟩
  · have h0 : word32 m pc = some 0x58000051#32 := by
      have := word32_le32 (h.slice 0 (r := le32 0x58000051#32) rfl)
      rwa [BitVec.add_zero] at this
    have h4 : word32 m (pc + 4#64) = some 0xd61f0220#32 := word32_le32 (h.slice 4 (r := le32 0xd61f0220#32) rfl)
    have h8 : word64 m (pc + 8#64) = some addr := word64_le64 (h.slice 8 (r := le64 addr) rfl)
    show ((some (pc, regs)).bind (a64Step m)).bind (a64Step m) = _
    have s1 : a64Step m (pc, regs) = some (pc + 4#64, regs.set 17#5 addr) := by
      unfold a64Step
      simp only [h0]
      have e : pc + (((0x58000051#32).extractLsb' 5 19).setWidth 21 <<< 2).signExtend 64 = pc + 8#64 := rfl
      rw [if_pos (by decide), e, h8]
      rfl
    have s2 : a64Step m (pc + 4#64, regs.set 17#5 addr) = some (addr, regs.set 17#5 addr) := by
      unfold a64Step
      simp only [h4]
      rw [if_neg (by decide), if_pos (by decide)]
      have e : (regs.set 17#5 addr) ((0xd61f0220#32).extractLsb' 5 5) = addr := by
        have : (0xd61f0220#32).extractLsb' 5 5 = 17#5 := by decide
        rw [this]; simp [Regs.set]
      rw [e]
    rw [Option.bind_some, s1, Option.bind_some, s2]
  · intro r hr
    simp only [List.mem_singleton] at hr
    simp [Regs.set, hr]

theorem loong_entry_reaches (m : Memory) (pc addr : BitVec 64) (junk : BitVec 32)
    (h : InMemory m pc (jmpEntry .loongarch64 junk addr)) : Reaches (loongStep m) [13#5, 15#5] pc addr := by
  intro regs
  refine ⟨3, ((regs.set 15#5 pc).set 15#5 addr).set 13#5 (pc + 12#64), ?_, ?_⟩
  · have h0 : word32 m pc = some 0x1c00000f#32 := by
      have := word32_le32 (h.slice 0 (r := le32 0x1c00000f#32) rfl)
      rwa [BitVec.add_zero] at this
    have h4 : word32 m (pc + 4#64) = some 0x28c041ef#32 := word32_le32 (h.slice 4 (r := le32 0x28c041ef#32) rfl)
    have h8 : word32 m (pc + 8#64) = some 0x4c0001ed#32 := word32_le32 (h.slice 8 (r := le32 0x4c0001ed#32) rfl)
    have h16 : word64 m (pc + 16#64) = some addr := word64_le64 (h.slice 16 (r := le64 addr) rfl)
    have s1 : loongStep m (pc, regs) = some (pc + 4#64, regs.set 15#5 pc) := by
      unfold loongStep
      simp only [h0]
      rw [if_pos (by decide)]
      have e1 : (0x1c00000f#32).extractLsb' 0 5 = 15#5 := by decide
      have e2 : (((0x1c00000f#32).extractLsb' 5 20).setWidth 32 <<< 12).signExtend 64 = 0#64 := by decide
      rw [e1, e2, BitVec.add_zero]
      rfl
    have s2 : loongStep m (pc + 4#64, regs.set 15#5 pc) = some (pc + 8#64, (regs.set 15#5 pc).set 15#5 addr) := by
      unfold loongStep
      simp only [h4]
      rw [if_neg (by decide), if_pos (by decide)]
      have e1 : (0x28c041ef#32).extractLsb' 0 5 = 15#5 := by decide
      have e2 : (0x28c041ef#32).extractLsb' 5 5 = 15#5 := by decide
      have e3 : ((0x28c041ef#32).extractLsb' 10 12).signExtend 64 = 16#64 := by decide
      have e4 : (regs.set 15#5 pc) 15#5 = pc := by simp [Regs.set]
      rw [e1, e2, e3, e4, h16, BitVec.add_assoc]
      rfl
    have s3 : loongStep m (pc + 8#64, (regs.set 15#5 pc).set 15#5 addr) =
        some (addr, ((regs.set 15#5 pc).set 15#5 addr).set 13#5 (pc + 12#64)) := by
      unfold loongStep
      simp only [h8]
      rw [if_neg (by decide), if_neg (by decide), if_pos (by decide)]
      have e1 : (0x4c0001ed#32).extractLsb' 0 5 = 13#5 := by decide
      have e2 : (0x4c0001ed#32).extractLsb' 5 5 = 15#5 := by decide
      have e3 : (((0x4c0001ed#32).extractLsb' 10 16).setWidth 18 <<< 2).signExtend 64 = 0#64 := by decide
      have e4 : ((regs.set 15#5 pc).set 15#5 addr) 15#5 = addr := by simp [Regs.set]
      rw [e1, e2, e3, e4, BitVec.add_zero, BitVec.add_assoc]
      rfl
    show (((some (pc, regs)).bind (loongStep m)).bind (loongStep m)).bind (loongStep m) = _
    rw [Option.bind_some, s1, Option.bind_some, s2, Option.bind_some, s3]
  · intro r hr
    simp only [List.mem_cons, List.not_mem_nil, or_false, not_or] at hr
    simp [Regs.set, hr.1, hr.2]

theorem rv_entry_reaches (m : Memory) (pc addr : BitVec 64) (junk : BitVec 32)
    (heven : addr &&& ~~~1#64 = addr)
    (h : InMemory m pc (jmpEntry .riscv64 junk addr)) : Reaches (rvStep m) [31#5] pc addr := by
  intro regs
  refine ⟨3, (regs.set 31#5 pc).set 31#5 addr, ?_, ?_⟩
  · have h0 : word32 m pc = some 0x00000f97#32 := by
      have := word32_le32 (h.slice 0 (r := le32 0x00000f97#32) rfl)
      rwa [BitVec.add_zero] at this
    have h4 : word32 m (pc + 4#64) = some 0x010fbf83#32 := word32_le32 (h.slice 4 (r := le32 0x010fbf83#32) rfl)
    have h8 : word32 m (pc + 8#64) = some 0x000f8067#32 := word32_le32 (h.slice 8 (r := le32 0x000f8067#32) rfl)
    have h16 : word64 m (pc + 16#64) = some addr := word64_le64 (h.slice 16 (r := le64 addr) rfl)
    have s1 : rvStep m (pc, regs) = some (pc + 4#64, regs.set 31#5 pc) := by
      unfold rvStep
      simp only [h0]
      rw [if_pos (by decide)]
      have e1 : (0x00000f97#32).extractLsb' 7 5 = 31#5 := by decide
      have e2 : (((0x00000f97#32).extractLsb' 12 20).setWidth 32 <<< 12).signExtend 64 = 0#64 := by decide
      rw [e1, e2, BitVec.add_zero]
      rfl
    have s2 : rvStep m (pc + 4#64, regs.set 31#5 pc) = some (pc + 8#64, (regs.set 31#5 pc).set 31#5 addr) := by
      unfold rvStep
      simp only [h4]
      rw [if_neg (by decide), if_pos (by decide)]
      have e1 : (0x010fbf83#32).extractLsb' 7 5 = 31#5 := by decide
      have e2 : (0x010fbf83#32).extractLsb' 15 5 = 31#5 := by decide
      have e3 : ((0x010fbf83#32).extractLsb' 20 12).signExtend 64 = 16#64 := by decide
      have e4 : (regs.set 31#5 pc) 31#5 = pc := by simp [Regs.set]
      rw [e1, e2, e3, e4, h16, BitVec.add_assoc]
      rfl
    have s3 : rvStep m (pc + 8#64, (regs.set 31#5 pc).set 31#5 addr) =
        some (addr, (regs.set 31#5 pc).set 31#5 addr) := by
      unfold rvStep
      simp only [h8]
      rw [if_neg (by decide), if_neg (by decide), if_pos (by decide)]
      have e1 : (0x000f8067#32).extractLsb' 7 5 = 0#5 := by decide
      have e2 : (0x000f8067#32).extractLsb' 15 5 = 31#5 := by decide
      have e3 : ((0x000f8067#32).extractLsb' 20 12).signExtend 64 = 0#64 := by decide
      have e4 : ((regs.set 31#5 pc).set 31#5 addr) 31#5 = addr := by simp [Regs.set]
      rw [e1, e2, e3, e4, BitVec.add_zero, heven]
      rfl
    show (((some (pc, regs)).bind (rvStep m)).bind (rvStep m)).bind (rvStep m) = _
    rw [Option.bind_some, s1, Option.bind_some, s2, Option.bind_some, s3]
  · intro r hr
    simp only [List.mem_singleton] at hr
    simp [Regs.set, hr]

/-- Instruction execution of each architecture, and the registers a jump table entry may use: the
intra-procedure-call registers of the respective calling conventions. -/
def archStep : Arch → Memory → BitVec 64 × Regs → Option (BitVec 64 × Regs)
  | .x86 => x86Step
  | .aarch64 => a64Step
  | .loongarch64 => loongStep
  | .riscv64 => rvStep

def archScratch : Arch → List (BitVec 5)
  | .x86 => []
  | .aarch64 => [17#5]
  | .loongarch64 => [13#5, 15#5]
  | .riscv64 => [31#5]

theorem entry_reaches (a : Arch) (m : Memory) (pc addr : BitVec 64) (junk : BitVec 32)
    (heven : a = .riscv64 → addr &&& ~~~1#64 = addr)
    (h : InMemory m pc (jmpEntry a junk addr)) : Reaches (archStep a m) (archScratch a) pc addr := by
  cases a
  · exact x86_entry_reaches m pc addr junk h
  · exact a64_entry_reaches m pc addr junk h
  · exact loong_entry_reaches m pc addr junk h
  · exact rv_entry_reaches m pc addr junk (heven rfl) h

theorem jmpEntry_length (a : Arch) (junk : BitVec 32) (addr : BitVec 64) :
    (jmpEntry a junk addr).length = a.jmpEntrySize := by
  cases a <;> rfl

/-- Symbols that get a jump table entry. -/
def PSym.lib (s : PSym) : Bool := s.sym.wanted && (s.sym.typ == .func || s.sym.typ == .object)

theorem resolveSyms_spec (a : Arch) (junk : Nat → BitVec 32) (resolve : CStr → BitVec 64)
    (secAddr : Nat → BitVec 64) (base : BitVec 64) :
    ∀ (ss : List PSym) (i : Nat) (t : Option JmpTable) (ss' : List Sym) (t' : Option JmpTable),
      resolveSyms a junk resolve secAddr base i ss t = some (ss', t') →
      ss'.length = ss.length ∧
      (ss.countP PSym.lib = 0 → t' = t) ∧
      (∀ jt, t = some jt → jt.entries.length = jt.max * a.jmpEntrySize →
        ∃ jt', t' = some jt' ∧ jt'.max = jt.max ∧ jt'.entries.length = jt.entries.length ∧
          jt'.cur = jt.cur + ss.countP PSym.lib ∧
          (∀ k, k < jt.cur * a.jmpEntrySize → jt'.entries[k]? = jt.entries[k]?) ∧
          ∀ k s, ss[k]? = some s → s.lib = true →
            ∃ s' j, ss'[k]? = some s' ∧ s'.size = resolve s.name ∧ resolve s.name ≠ 0#64 ∧
              jt.cur + (ss.take k).countP PSym.lib < jt.max ∧
              s'.value = base + BitVec.ofNat 64 (16 + (jt.cur + (ss.take k).countP PSym.lib) * a.jmpEntrySize) ∧
              bytesAt jt'.entries ((jt.cur + (ss.take k).countP PSym.lib) * a.jmpEntrySize) a.jmpEntrySize =
                jmpEntry a j (resolve s.name)) ∧
      (t = none → ∀ s ∈ ss, s.lib = false)
  | [], i, t, ss', t', h => by
    simp only [resolveSyms, Option.some.injEq, Prod.mk.injEq] at h
    obtain ⟨rfl, rfl⟩ := h
    refine ⟨rfl, fun _ => rfl, ?_, by simp⟩
    intro jt hjt hl
    exact ⟨jt, hjt, rfl, rfl, by simp, fun _ _ => rfl, by simp⟩
  | s :: ss, i, t, ss', t', h => by
    unfold resolveSyms at h
    cases h1 : symbolResolve a (junk i) resolve secAddr base s t with
    | none => rw [h1] at h; simp at h
    | some q =>
      obtain ⟨s1, t1⟩ := q
      rw [h1] at h
      simp only at h
      cases h2 : resolveSyms a junk resolve secAddr base (i + 1) ss t1 with
      | none => rw [h2] at h; simp at h
      | some q2 =>
        obtain ⟨ss2, t2⟩ := q2
        rw [h2] at h
        simp only [Option.some.injEq, Prod.mk.injEq] at h
        obtain ⟨rfl, rfl⟩ := h
        obtain ⟨il, i0, i1, i2⟩ := resolveSyms_spec a junk resolve secAddr base ss (i + 1) t1 ss2 t2 h2
        by_cases hlib : s.lib = true
        · -- a library symbol: one entry is added
          have hw : s.sym.wanted = true := by
            unfold PSym.lib at hlib; simp only [Bool.and_eq_true] at hlib; exact hlib.1
          have hty : s.sym.typ = .func ∨ s.sym.typ = .object := by
            unfold PSym.lib at hlib
            simp only [Bool.and_eq_true, Bool.or_eq_true, beq_iff_eq] at hlib; exact hlib.2
          have hres : resolve s.name ≠ 0#64 ∧ ∃ jt, t = some jt ∧ jt.cur < jt.max ∧
              s1 = { s.sym with
                size := resolve s.name, value := base + BitVec.ofNat 64 (16 + jt.cur * a.jmpEntrySize) } ∧
              t1 = some { jt with
                cur := jt.cur + 1
                entries := pokeAt jt.entries (jt.cur * a.jmpEntrySize) (jmpEntry a (junk i) (resolve s.name)) } := by
            unfold symbolResolve at h1
            have h1' : (if resolve s.name = 0#64 then none
                else match addJmpEntry a (junk i) base t (resolve s.name) with
                  | none => none
                  | some (v, t') => if v = 0#64 then none
                    else some ({ s.sym with size := resolve s.name, value := v }, some t')) = some (s1, t1) := by
              rcases hty with hty | hty <;> rw [hty] at h1 <;> simp only [hw, if_true] at h1 <;> exact h1
            split at h1'
            · simp at h1'
            · rename_i hne
              refine ⟨hne, ?_⟩
              unfold addJmpEntry at h1'
              cases t with
              | none => simp at h1'
              | some jt =>
                refine ⟨jt, rfl, ?_⟩
                dsimp only at h1'
                by_cases hfull : jt.cur ≥ jt.max
                · rw [if_pos hfull] at h1'; simp at h1'
                · rw [if_neg hfull] at h1'
                  dsimp only at h1'
                  split at h1'
                  · simp at h1'
                  · simp only [Option.some.injEq, Prod.mk.injEq] at h1'
                    exact ⟨by omega, h1'.1.symm, h1'.2.symm⟩
          obtain ⟨hne, jt, hjt, hlt, hs1, ht1⟩ := hres
          refine ⟨by simp [il], ?_, ?_, ?_⟩
          · intro hz; simp [hlib] at hz
          · intro jt0 hjt0 hl
            rw [hjt] at hjt0
            cases hjt0
            have hle : (jt.cur + 1) * a.jmpEntrySize ≤ jt.max * a.jmpEntrySize := Nat.mul_le_mul_right _ (by omega)
            rw [Nat.add_mul, Nat.one_mul] at hle
            have hfit : jt.cur * a.jmpEntrySize + (jmpEntry a (junk i) (resolve s.name)).length ≤ jt.entries.length := by
              rw [jmpEntry_length, hl]; omega
            obtain ⟨jt', e1, e2, e3, e4, e5, e6⟩ := i1 _ ht1 (by dsimp only; rw [pokeAt_length _ _ _ hfit]; exact hl)
            dsimp only at e2 e3 e4 e5 e6
            rw [pokeAt_length _ _ _ hfit] at e3
            refine ⟨jt', e1, e2, e3, ?_, ?_, ?_⟩
            · rw [e4, List.countP_cons, if_pos hlib]; omega
            · intro k hk
              rw [e5 k (by rw [Nat.add_mul]; omega)]
              apply pokeAt_getElem?_out _ _ _ _ hfit
              omega
            · intro k x hk hx
              cases k with
              | zero =>
                simp only [List.getElem?_cons_zero, Option.some.injEq] at hk
                subst hk
                refine ⟨s1, junk i, rfl, by rw [hs1], hne, by simpa using hlt, by rw [hs1]; simp, ?_⟩
                simp only [List.take_zero, List.countP_nil, Nat.add_zero]
                have := bytesAt_pokeAt jt.entries (jt.cur * a.jmpEntrySize) _ hfit
                rw [jmpEntry_length] at this
                rw [← this]
                apply bytesAt_congr
                intro k hk1 hk2
                apply e5
                rw [Nat.add_mul]; omega
              | succ k =>
                simp only [List.getElem?_cons_succ] at hk
                obtain ⟨s', j, g1, g2, g3, g4, g5, g6⟩ := e6 k x hk hx
                have hc : jt.cur + ((s :: ss).take (k + 1)).countP PSym.lib =
                    jt.cur + 1 + (ss.take k).countP PSym.lib := by
                  rw [List.take_succ_cons, List.countP_cons, if_pos hlib]; omega
                rw [hc]
                exact ⟨s', j, by simpa using g1, g2, g3, g4, g5, g6⟩
          · intro ht; rw [ht] at hjt; simp at hjt
        · -- other symbols leave the table alone
          have ht1 : t1 = t := by
            unfold symbolResolve at h1
            cases hty : s.sym.typ <;> rw [hty] at h1 <;> dsimp only at h1
            case func | object =>
              have hnw : ¬ s.sym.wanted = true := by
                intro hw; apply hlib; unfold PSym.lib; simp [hw, hty]
              rw [if_neg hnw] at h1
              simp only [Option.some.injEq, Prod.mk.injEq] at h1; exact h1.2.symm
            all_goals first
              | (simp only [Option.some.injEq, Prod.mk.injEq] at h1; exact h1.2.symm)
              | simp at h1
          subst ht1
          have hlf : s.lib = false := by simpa using hlib
          refine ⟨by simp [il], ?_, ?_, ?_⟩
          · intro hz
            apply i0
            simpa [List.countP_cons, hlf] using hz
          · intro jt hjt hl
            obtain ⟨jt', e1, e2, e3, e4, e5, e6⟩ := i1 jt hjt hl
            refine ⟨jt', e1, e2, e3, by simp [List.countP_cons, hlf, e4], e5, ?_⟩
            intro k x hk hx
            cases k with
            | zero =>
              simp only [List.getElem?_cons_zero, Option.some.injEq] at hk
              subst hk; rw [hlf] at hx; simp at hx
            | succ k =>
              simp only [List.getElem?_cons_succ] at hk
              obtain ⟨s', j, g⟩ := e6 k x hk hx
              refine ⟨s', j, by simpa using g.1, ?_⟩
              have hc : ((s :: ss).take (k + 1)).countP PSym.lib = (ss.take k).countP PSym.lib := by
                rw [List.take_succ_cons, List.countP_cons, hlf]; simp
              rw [hc]
              exact g.2
          · intro ht x hx
            rcases List.mem_cons.1 hx with rfl | hx
            · exact hlf
            · exact i2 ht x hx

/-- Resolution succeeds when types are supported, every library symbol resolves and there is room. -/
theorem resolveSyms_succeeds (a : Arch) (junk : Nat → BitVec 32) (resolve : CStr → BitVec 64)
    (secAddr : Nat → BitVec 64) (base : BitVec 64) :
    ∀ (ss : List PSym) (i : Nat) (t : JmpTable),
      (∀ s ∈ ss, s.sym.typ ≠ .ifunc ∧ s.sym.typ ≠ .other) →
      (∀ s ∈ ss, s.lib = true → resolve s.name ≠ 0#64) →
      t.cur + ss.countP PSym.lib ≤ t.max →
      (∀ e < t.max, base + BitVec.ofNat 64 (16 + e * a.jmpEntrySize) ≠ 0#64) →
      (resolveSyms a junk resolve secAddr base i ss (some t)).isSome
  | [], i, t, _, _, _, _ => rfl
  | s :: ss, i, t, hty, hres, hroom, hbase => by
    unfold resolveSyms
    have hs : ∃ s' t', symbolResolve a (junk i) resolve secAddr base s (some t) = some (s', some t') ∧
        t'.max = t.max ∧ t'.cur + ss.countP PSym.lib ≤ t.max := by
      rw [List.countP_cons] at hroom
      have h1 := hty s (by simp)
      unfold symbolResolve
      by_cases hlib : s.lib = true
      · have hw : s.sym.wanted = true := by
          unfold PSym.lib at hlib; simp only [Bool.and_eq_true] at hlib; exact hlib.1
        have hft : s.sym.typ = .func ∨ s.sym.typ = .object := by
          unfold PSym.lib at hlib
          simp only [Bool.and_eq_true, Bool.or_eq_true, beq_iff_eq] at hlib; exact hlib.2
        rw [if_pos hlib] at hroom
        have hne := hres s (by simp) hlib
        have hlt : ¬ t.cur ≥ t.max := by omega
        have hb := hbase t.cur (by omega)
        rcases hft with hft | hft <;> rw [hft] <;> simp only [hw, if_true, if_neg hne, addJmpEntry, if_neg hlt, if_neg hb] <;>
          exact ⟨_, _, rfl, rfl, by dsimp only; omega⟩
      · have hlf : s.lib = false := by simpa using hlib
        rw [if_neg hlib] at hroom
        cases hft : s.sym.typ <;> dsimp only
        case func | object =>
          have hnw : ¬ s.sym.wanted = true := by
            intro hw; apply hlib; unfold PSym.lib; simp [hw, hft]
          rw [if_neg hnw]
          exact ⟨_, _, rfl, rfl, by omega⟩
        case ifunc => exact absurd hft h1.1
        case other => exact absurd hft h1.2
        all_goals exact ⟨_, _, rfl, rfl, by omega⟩
    obtain ⟨s', t', e1, e2, e3⟩ := hs
    rw [e1]
    simp only
    have ih := resolveSyms_succeeds a junk resolve secAddr base ss (i + 1) t'
      (fun x hx => hty x (by simp [hx])) (fun x hx => hres x (by simp [hx])) (by omega)
      (by rw [e2]; exact hbase)
    cases h : resolveSyms a junk resolve secAddr base (i + 1) ss (some t') with
    | none => rw [h] at ih; simp at ih
    | some q => simp

end Verif
