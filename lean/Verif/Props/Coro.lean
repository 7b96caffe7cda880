import Verif.Spec.Coro
import Verif.Proof.Mem
import Verif.Proof.Reloc
import Verif.Proof.RelocLoong
/-
C54: the registers of coroutines are recovered as the C library saved them.
-/
namespace Verif

/-- Demangling undoes glibc's mangling for every pointer and guard. -/
theorem C54_demangle (g x : BitVec 64) : ptrDemangle (ptrMangle g x) g = x := by
  have h : ∀ y : BitVec 64, ((y.rotateLeft 17) >>> 0x11) ||| ((y.rotateLeft 17) <<< 47) = y := by
    intro y
    apply BitVec.eq_of_getLsbD_eq
    intro i hi
    simp only [BitVec.getLsbD_or, BitVec.getLsbD_ushiftRight, BitVec.getLsbD_shiftLeft, BitVec.getLsbD_rotateLeft]
    by_cases h1 : i < 47
    · have a1 : ¬ (17 + i < 17 % 64) := by omega
      have a2 : 17 + i < 64 := by omega
      simp [h1, a1, a2]
    · have a1 : ¬ (17 + i < 64) := by omega
      have a2 : i - 47 < 17 := by omega
      have a3 : 47 + (i - 47) = i := by omega
      have a4 : i - 47 < 64 := by omega
      have a5 : ¬ (17 + i < 17) := by omega
      simp [h1, a2, a3, hi, a1, a4]
  unfold ptrDemangle ptrMangle
  rw [h, BitVec.xor_assoc, BitVec.xor_self, BitVec.xor_zero]

theorem holds_agree {m : Mem} {a : Nat} {bs cs : List Byte} (h1 : Holds m a bs) (h2 : Holds m a cs)
    (hl : cs.length ≤ bs.length) : bs.take cs.length = cs := by
  apply List.ext_getElem
  · simp; omega
  · intro k h3 h4
    have e1 := h1 k (by simp at h3; omega)
    have e2 := h2 k h4
    rw [e1] at e2
    simp only [Option.some.injEq] at e2
    simp [e2]

theorem holds_mapped {m : Mem} {a : Nat} {bs : List Byte} (h : Holds m a bs) : Mapped m a bs.length := by
  intro k hk
  rw [h k hk]
  simp

theorem ld64_le64 (w : BitVec 64) (bs : List Byte) : ld64 (le64 w ++ bs) = w := by
  rw [← ld64_take]
  rw [List.take_left' (le64_length w)]
  exact field64_some (field64_le64 w)

theorem demangle_saved {m : Mem} {g : BitVec 64} {a : Nat} {r : XRegs} (h : SavedAt m g a r)
    {lim : Nat} (hl : envSize ≤ lim) :
    ∃ env, memRead lim m a envSize = some env ∧
      ∀ x, coroReg (demangleRegs env g) x = some (r.get x) := by
  obtain ⟨env, h1, h2, h3⟩ := memRead_full hl h.2
  refine ⟨env, h1, ?_⟩
  have hlen : (wordBytes (setjmpWords g r)).length = 64 := rfl
  have hpre := holds_agree h3 h.1 (by rw [hlen, h2]; decide)
  obtain ⟨tl, htl⟩ : ∃ tl, env = wordBytes (setjmpWords g r) ++ tl :=
    ⟨env.drop 64, by rw [← hpre, hlen, List.take_append_drop]⟩
  have hw : ∀ (i : Nat) (w : BitVec 64) (pre post : List (BitVec 64)), setjmpWords g r = pre ++ w :: post → pre.length = i →
      envWord env i = w := by
    intro i w pre post hs hi
    have hp : (wordBytes pre).length = 8 * i := by
      rw [← hi]
      clear hs hi
      induction pre with
      | nil => rfl
      | cons p ps ih => simp only [wordBytes, List.flatMap_cons, List.length_append, le64_length, List.length_cons] at ih ⊢; omega
    unfold envWord
    rw [htl, hs]
    have : wordBytes (pre ++ w :: post) ++ tl = wordBytes pre ++ (le64 w ++ (wordBytes post ++ tl)) := by
      simp [wordBytes]
    rw [this, ← hp, List.drop_left, ld64_le64]
  have w0 := hw 0 _ [] _ rfl rfl
  have w1 := hw 1 _ [_] _ rfl rfl
  have w2 := hw 2 _ [_, _] _ rfl rfl
  have w3 := hw 3 _ [_, _, _] _ rfl rfl
  have w4 := hw 4 _ [_, _, _, _] _ rfl rfl
  have w5 := hw 5 _ [_, _, _, _, _] _ rfl rfl
  have w6 := hw 6 _ [_, _, _, _, _, _] _ rfl rfl
  have w7 := hw 7 _ [_, _, _, _, _, _, _] _ rfl rfl
  intro x
  cases x <;> simp [coroReg, demangleRegs, w0, w1, w2, w3, w4, w5, w6, w7, XRegs.get, C54_demangle]

/-- **C54**, listed coroutines (x86-64).  If the memory of the process holds a list of coroutines whose jump
buffers hold the registers `rs`, the search finds exactly these coroutines, in order, and reading any
register of any of them gives the value it had when the coroutine was switched away from. -/
theorem C54_listed (m : Mem) (g : BitVec 64) (envOff nextOff : Nat) (lim : Nat) (hl : envSize ≤ lim)
    (head : Nat) (rs : List XRegs) (h : CoroList m g envOff nextOff head rs) (fuel : Nat) (hf : rs.length < fuel) :
    ∃ cs, listedCoros lim m envOff nextOff g fuel head = some cs ∧ cs.length = rs.length ∧
      ∀ (i : Nat) (c : Coro) (r : XRegs), cs[i]? = some c → rs[i]? = some r →
        ∀ x, coroReg c x = some (r.get x) := by
  induction rs generalizing head fuel with
  | nil =>
    obtain ⟨f, rfl⟩ : ∃ f, fuel = f + 1 := ⟨fuel - 1, by simp at hf; omega⟩
    simp only [CoroList] at h
    exact ⟨[], by simp [listedCoros, h], rfl, by simp⟩
  | cons r rs ih =>
    obtain ⟨f, rfl⟩ : ∃ f, fuel = f + 1 := ⟨fuel - 1, by simp at hf; omega⟩
    obtain ⟨h1, h2, next, h3, h4, h5⟩ := h
    obtain ⟨env, e1, e2⟩ := demangle_saved h2 hl
    obtain ⟨nx, n1, n2, n3⟩ := memRead_full (lim := lim) (n := 8) (by have : envSize = 200 := rfl; omega) (holds_mapped h4)
    have hnx : nx = le64 (BitVec.ofNat 64 next) := by
      have := holds_agree n3 h4 (by rw [n2]; exact Nat.le_refl 8)
      rw [le64_length, List.take_of_length_le (by omega)] at this
      exact this
    have hld : (ld64 nx).toNat = next := by
      rw [hnx, ← List.append_nil (le64 _), ld64_le64, BitVec.toNat_ofNat, Nat.mod_eq_of_lt h3]
    obtain ⟨cs, c1, c2, c3⟩ := ih next h5 f (by simp at hf; omega)
    refine ⟨demangleRegs env g :: cs, ?_, by simp [c2], ?_⟩
    · rw [listedCoros, if_neg h1, e1]
      simp only [n1, hld, c1, Option.map_some]
    · intro i c r' hi hr x
      cases i with
      | zero => simp at hi hr; subst hi hr; exact e2 x
      | succ i => exact c3 i c r' (by simpa using hi) (by simpa using hr) x

/-- A page that is not the end of a coroutine's stack by the code's test. -/
def NoCoroStack (m : Mem) (startCtx : BitVec 64) (ptr : Nat) : Prop :=
  (∃ v, WordAt m (ptr - 24) v ∧ v ≠ startCtx) ∨
  (WordAt m (ptr - 24) startCtx ∧ ∃ v, WordAt m (ptr - 32) v ∧ v ≠ BitVec.ofNat 64 (ptr - 16)) ∨
  (WordAt m (ptr - 24) startCtx ∧ WordAt m (ptr - 32) (BitVec.ofNat 64 (ptr - 16)) ∧
    ∃ v v2, WordAt m (ptr - 64) v ∧ WordAt m (ptr - 56) v2 ∧ v ≠ v2)

theorem peek_word {lim : Nat} (hl : 8 ≤ lim) {m : Mem} {a : Nat} {w : BitVec 64} (h : WordAt m a w) :
    peekUlong lim m a = some w := by
  obtain ⟨bs, b1, b2, b3⟩ := memRead_full (lim := lim) (n := 8) hl (holds_mapped h)
  have : bs = le64 w := by
    have := holds_agree b3 h (by rw [b2]; exact Nat.le_refl 8)
    rw [le64_length, List.take_of_length_le (by omega)] at this
    exact this
  unfold peekUlong
  rw [b1, Option.map_some, this, ← List.append_nil (le64 _), ld64_le64]

/-- The heap, page by page, as the specification sees it: which pages end the stack of a coroutine, with
which registers. -/
inductive HeapCoros (m : Mem) (startCtx g : BitVec 64) (page : Nat) : Nat → Nat → List XRegs → Prop where
  | done (cur : Nat) : HeapCoros m startCtx g page 0 cur []
  | other (n cur : Nat) (rs : List XRegs) (h : NoCoroStack m startCtx (cur + page))
      (t : HeapCoros m startCtx g page n (cur + page) rs) : HeapCoros m startCtx g page (n + 1) cur rs
  | stack (n cur : Nat) (rs : List XRegs) (c : BitVec 64) (r : XRegs) (h : CoroStack m startCtx g (cur + page) c r)
      (t : HeapCoros m startCtx g page n (cur + page) rs) : HeapCoros m startCtx g page (n + 1) cur (r :: rs)

/-- **C54**, coroutines found by scanning the heap (x86-64): for every heap all of whose pages are either
ends of coroutine stacks or visibly not, the scan finds exactly the coroutines, in address order, with the
registers they were saved with. -/
theorem C54_heap (m : Mem) (startCtx g : BitVec 64) (page lim : Nat) (hl : envSize ≤ lim) (n cur : Nat)
    (rs : List XRegs) (h : HeapCoros m startCtx g page n cur rs) :
    ∃ cs, heapCoros lim m startCtx g page n cur = some cs ∧ cs.length = rs.length ∧
      ∀ (i : Nat) (c : Coro) (r : XRegs), cs[i]? = some c → rs[i]? = some r →
        ∀ x, coroReg c x = some (r.get x) := by
  have h8 : 8 ≤ lim := by have : envSize = 200 := rfl; omega
  induction h with
  | done => exact ⟨[], rfl, rfl, by simp⟩
  | other n cur rs h t ih =>
    obtain ⟨cs, c1, c2, c3⟩ := ih
    refine ⟨cs, ?_, c2, c3⟩
    have : scanPage lim m startCtx g (cur + page) = some none := by
      unfold scanPage
      rcases h with ⟨v, a, b⟩ | ⟨a, v, b, c⟩ | ⟨a, b, v, v2, c, d, e⟩
      · simp [peek_word h8 a, b]
      · simp [peek_word h8 a, peek_word h8 b, c]
      · simp [peek_word h8 a, peek_word h8 b, peek_word h8 c, peek_word h8 d, e]
    rw [heapCoros, this]
    exact c1
  | stack n cur rs c r h t ih =>
    obtain ⟨cs, c1, c2, c3⟩ := ih
    obtain ⟨h1, h2, h3, h4, h5⟩ := h
    obtain ⟨env, e1, e2⟩ := demangle_saved h5 hl
    have : scanPage lim m startCtx g (cur + page) = some (some (demangleRegs env g)) := by
      unfold scanPage
      simp [peek_word h8 h1, peek_word h8 h2, peek_word h8 h3, peek_word h8 h4, e1]
    refine ⟨demangleRegs env g :: cs, ?_, by simp [c2], ?_⟩
    · rw [heapCoros, this]
      simp [c1]
    · intro i c' r' hi hr x
      cases i with
      | zero => simp at hi hr; subst hi hr; exact e2 x
      | succ i => exact c3 i c' r' (by simpa using hi) (by simpa using hr) x

/-- A memory with a list of one coroutine, to see that the hypotheses can be met. -/
def c54Mem (g : BitVec 64) (r : XRegs) : Mem := fun a =>
  if 0x1000 ≤ a ∧ a < 0x1000 + 208 then
    some (((le64 0 ++ wordBytes (setjmpWords g r)) ++ List.replicate 136 0)[a - 0x1000]?.getD 0)
  else none

example (g : BitVec 64) (r : XRegs) : CoroList (c54Mem g r) g 8 0 0x1000 [r] := by
  have hlen : (wordBytes (setjmpWords g r)).length = 64 := rfl
  refine ⟨by decide, ⟨?_, ?_⟩, 0, by decide, ?_, rfl⟩
  · intro k hk
    rw [hlen] at hk
    unfold c54Mem
    rw [if_pos (by omega)]
    have e : 0x1000 + 8 + k - 0x1000 = 8 + k := by omega
    rw [e, List.getElem?_append_left (by simp [le64_length, hlen]; omega),
      List.getElem?_append_right (by simp [le64_length]), le64_length, show 8 + k - 8 = k by omega,
      List.getElem?_eq_getElem (by rw [hlen]; exact hk)]
    rfl
  · intro k hk
    unfold c54Mem
    have : envSize = 200 := rfl
    rw [if_pos (by omega)]
    simp
  · intro k hk
    rw [le64_length] at hk
    unfold c54Mem
    rw [if_pos (by omega)]
    have e : 0x1000 + 0 + k - 0x1000 = k := by omega
    rw [e, List.append_assoc, List.getElem?_append_left (by rw [le64_length]; omega),
      List.getElem?_eq_getElem (by rw [le64_length]; exact hk)]
    rfl

theorem envWord_words {i : Nat} {w : BitVec 64} {pre post : List (BitVec 64)} (hi : pre.length = i) :
    envWord (wordBytes (pre ++ w :: post)) i = w := by
  have hp : (wordBytes pre).length = 8 * i := by
    rw [← hi]
    clear hi
    induction pre with
    | nil => rfl
    | cons p ps ih => simp only [wordBytes, List.flatMap_cons, List.length_append, le64_length, List.length_cons] at ih ⊢; omega
  unfold envWord
  have : wordBytes (pre ++ w :: post) = wordBytes pre ++ (le64 w ++ wordBytes post) := by simp [wordBytes]
  rw [this, ← hp, List.drop_left, ld64_le64]

/-- What is read on aarch64 for the registers of a suspended coroutine: those the C library keeps in the same words of its buffer as the
x86-64 registers, the second, seventh and eighth demangled as on x86-64. -/
theorem C54_aarch64_reads (g : BitVec 64) (x : Nat → BitVec 64) (sp : BitVec 64) :
    let read := coroRegA64 (demangleRegs (wordBytes (setjmpWordsA64 g x sp)) g)
    read .x9 = some (x 19) ∧ read .x12 = some (x 21) ∧ read .x13 = some (x 22) ∧ read .x14 = some (x 23) ∧ read .x15 = some (x 24) ∧
    ∀ p, (x 20 = ptrMangle g p → read .x29 = some p) ∧ (x 25 = ptrMangle g p → read .sp = some p) ∧
      (x 26 = ptrMangle g p → read .pc = some p) := by
  have e0 : envWord (wordBytes (setjmpWordsA64 g x sp)) 0 = x 19 := envWord_words (pre := []) rfl
  have e1 : envWord (wordBytes (setjmpWordsA64 g x sp)) 1 = x 20 := envWord_words (pre := [_]) rfl
  have e2 : envWord (wordBytes (setjmpWordsA64 g x sp)) 2 = x 21 := envWord_words (pre := [_, _]) rfl
  have e3 : envWord (wordBytes (setjmpWordsA64 g x sp)) 3 = x 22 := envWord_words (pre := [_, _, _]) rfl
  have e4 : envWord (wordBytes (setjmpWordsA64 g x sp)) 4 = x 23 := envWord_words (pre := [_, _, _, _]) rfl
  have e5 : envWord (wordBytes (setjmpWordsA64 g x sp)) 5 = x 24 := envWord_words (pre := [_, _, _, _, _]) rfl
  have e6 : envWord (wordBytes (setjmpWordsA64 g x sp)) 6 = x 25 := envWord_words (pre := [_, _, _, _, _, _]) rfl
  have e7 : envWord (wordBytes (setjmpWordsA64 g x sp)) 7 = x 26 := envWord_words (pre := [_, _, _, _, _, _, _]) rfl
  simp only [coroRegA64, demangleRegs, e0, e1, e2, e3, e4, e5, e6, e7]
  refine ⟨rfl, rfl, rfl, rfl, rfl, fun p => ⟨fun h => ?_, fun h => ?_, fun h => ?_⟩⟩ <;> rw [h, C54_demangle] <;> rfl

/-- **C54 is violated on aarch64**: the code reads x29 (the frame pointer the unwinder starts from) from
word 1 and demangles it as on x86-64, but the C library stores x20 there. -/
theorem C54_violated_aarch64 :
    ∃ (g : BitVec 64) (x : Nat → BitVec 64) (sp : BitVec 64),
      coroRegA64 (demangleRegs (wordBytes (setjmpWordsA64 g x sp)) g) .x29 ≠ some (x 29) ∧
      coroRegA64 (demangleRegs (wordBytes (setjmpWordsA64 g x sp)) g) .sp ≠ some sp ∧
      coroRegA64 (demangleRegs (wordBytes (setjmpWordsA64 g x sp)) g) .pc ≠ some (x 30) := by
  refine ⟨0, fun n => BitVec.ofNat 64 n, 0x7000, ?_, ?_, ?_⟩ <;> decide +kernel

theorem envWord_get {ws : List (BitVec 64)} {i : Nat} {w : BitVec 64} (h : ws[i]? = some w) : envWord (wordBytes ws) i = w := by
  obtain ⟨hl, hw⟩ := List.getElem?_eq_some_iff.1 h
  have e : ws = ws.take i ++ w :: ws.drop (i + 1) := by
    rw [← hw, List.getElem_cons_drop, List.take_append_drop]
  rw [e]
  exact envWord_words (by simp; omega)

theorem demangle14_get {ws : List (BitVec 64)} {i : Nat} {w : BitVec 64} (g : BitVec 64) (h : ws[i]? = some w) (hi : i < 14) :
    (demangleRegs14 (wordBytes ws) g).regs[i]? = some (if i = 1 ∨ i = 6 ∨ i = 7 then ptrDemangle w g else w) := by
  unfold demangleRegs14
  rw [List.getElem?_map, List.getElem?_range hi, Option.map_some, envWord_get h]

/-- C54 on RISC-V: the address, the stack pointer and the saved registers but s0, s5 and s6 are those stored.  Those three are not, see
`C54_violated_riscv`. -/
theorem C54_riscv_partial (guard pc : BitVec 64) (x : Nat → BitVec 64) (sp : BitVec 64) :
    let read := coroRegRv (demangleRegs14 (wordBytes (setjmpWordsRv pc x sp)) guard)
    read .pc = some pc ∧ read (.x 2) = some sp ∧ (∀ n ∈ [9, 18, 19, 20, 23, 24, 25, 26, 27], read (.x n) = some (x n)) ∧
    ∀ n ∈ [8, 21, 22], read (.x n) = some (ptrDemangle (x n) guard) := by
  intro read
  have key := fun i w h hi => demangle14_get (ws := setjmpWordsRv pc x sp) (i := i) (w := w) guard h hi
  refine ⟨key 0 _ rfl (by decide), key 13 _ rfl (by decide), ?_, ?_⟩
  · intro n hn
    simp only [List.mem_cons, List.not_mem_nil, or_false] at hn
    rcases hn with rfl | rfl | rfl | rfl | rfl | rfl | rfl | rfl | rfl
    · exact key 2 _ rfl (by decide)
    · exact key 3 _ rfl (by decide)
    · exact key 4 _ rfl (by decide)
    · exact key 5 _ rfl (by decide)
    · exact key 8 _ rfl (by decide)
    · exact key 9 _ rfl (by decide)
    · exact key 10 _ rfl (by decide)
    · exact key 11 _ rfl (by decide)
    · exact key 12 _ rfl (by decide)
  · intro n hn
    simp only [List.mem_cons, List.not_mem_nil, or_false] at hn
    rcases hn with rfl | rfl | rfl
    · exact key 1 _ rfl (by decide)
    · exact key 6 _ rfl (by decide)
    · exact key 7 _ rfl (by decide)

/-- **C54 is violated on RISC-V**: whatever the value of the guard, which is not set, there is a frame pointer that is not recovered. -/
theorem C54_violated_riscv (guard pc sp : BitVec 64) : ∃ x : Nat → BitVec 64,
    coroRegRv (demangleRegs14 (wordBytes (setjmpWordsRv pc x sp)) guard) (.x 8) ≠ some (x 8) := by
  have h8 := fun v => (C54_riscv_partial guard pc (fun _ => v) sp).2.2.2 8 (by simp)
  by_cases hg : guard = 0
  · refine ⟨fun _ => 1, ?_⟩
    rw [h8 1, hg]
    decide +kernel
  · refine ⟨fun _ => 0, ?_⟩
    rw [h8 0]
    intro hc
    have := Option.some.inj hc
    simp only [ptrDemangle] at this
    simp at this
    exact hg this

/-- **C54 is violated on LoongArch**: the C library keeps the registers in another order.  What is read for s0 is the stack pointer
(changed by the demangling), for s1 r21, and for the stack pointer a floating point register. -/
theorem C54_violated_loongarch (guard pc : BitVec 64) (x : Nat → BitVec 64) (sp f24 : BitVec 64) :
    let read := coroRegLoong (demangleRegs14 (wordBytes (setjmpWordsLoong pc x sp f24)) guard)
    read .pc = some pc ∧ read (.x 23) = some (ptrDemangle sp guard) ∧ read (.x 24) = some (x 21) ∧ read (.x 25) = some (x 22) ∧
    read (.x 31) = some (x 28) ∧ read (.x 3) = some f24 ∧ (sp ≠ f24 → read (.x 3) ≠ some sp) := by
  intro read
  have key := fun i w h hi => demangle14_get (ws := setjmpWordsLoong pc x sp f24) (i := i) (w := w) guard h hi
  have h3 : read (.x 3) = some f24 := key 13 _ rfl (by decide)
  refine ⟨key 0 _ rfl (by decide), key 1 _ rfl (by decide), key 2 _ rfl (by decide), key 3 _ rfl (by decide), key 9 _ rfl (by decide), h3, fun h hc => ?_⟩
  rw [h3] at hc
  exact h (Option.some.inj hc).symm

end Verif
