import Verif.Proof.Gotpcrel
import Verif.Proof.GenInv
import Verif.Props.FnBlock
/-
C63: moves to and from global variables keep their effect when they are rewritten to go through the global offset table
(--force-gotpcrel).  The meaning of the instructions is in Spec/X86Mov.
-/
namespace Verif.X86

attribute [local instance] x86Asm

theorem line_nl {f A B : List Byte} (hf : Letters f) (hA : OpText A) (hB : OpText B) :
    ∀ c ∈ lit "\tmov" ++ f ++ lit "\t" ++ (A ++ lit ", " ++ B), c ≠ 10#8 := by
  intro c hc
  simp only [List.mem_append] at hc
  have h1 : ∀ c ∈ lit "\tmov", c ≠ 10#8 := by decide +kernel
  have h2 : ∀ c ∈ lit "\t", c ≠ 10#8 := by decide +kernel
  have h3 : ∀ c ∈ lit ", ", c ≠ 10#8 := by decide +kernel
  rcases hc with ((h | h) | h) | ((h | h) | h)
  · exact h1 c h
  · have := hf c h
    rintro rfl
    simp at this
  · exact h2 c h
  · exact (hA c h).2.2.2.1
  · exact h3 c h
  · exact (hB c h).2.2.2.1

theorem run_one {L : Link} {l : List Byte} (h : ∀ c ∈ l, c ≠ 10#8) (s : State) : run L l s = step L l s := by
  unfold run
  rw [lines_one h, List.foldlM_cons]
  cases step L l s <;> rfl

theorem run_cons {L : Link} {l r : List Byte} (h : ∀ c ∈ l, c ≠ 10#8) (s : State) :
    run L (l ++ 10#8 :: r) s = (step L l s).bind (run L r) := by
  unfold run
  rw [lines_cons h, List.foldlM_cons]
  cases step L l s <;> rfl

theorem loadText_eq (f n r : List Byte) :
    loadText f n r = lit "\tmov" ++ f ++ lit "\t" ++ ((n ++ lit "(%rip)") ++ lit ", " ++ r) := by
  unfold loadText
  rw [show lit "(%rip), " = lit "(%rip)" ++ lit ", " from by decide +kernel]
  simp only [List.append_assoc]

theorem storeText_eq (f a n : List Byte) :
    storeText f a n = lit "\tmov" ++ f ++ lit "\t" ++ (a ++ lit ", " ++ (n ++ lit "(%rip)")) := by
  unfold storeText
  simp only [List.append_assoc]

theorem op_rip {n : List Byte} (h : IsSymbol n) : OpText (n ++ lit "(%rip)") ∧ n ++ lit "(%rip)" ≠ [] :=
  ⟨op_append (symbol_op h).1 (by decide +kernel), by simp [h.1]⟩

theorem op_got {n : List Byte} (h : IsSymbol n) : OpText (n ++ gotpcrelSuffix) ∧ n ++ gotpcrelSuffix ≠ [] :=
  ⟨op_append (symbol_op h).1 (by decide +kernel), by simp [h.1]⟩

/-- The text in place of a load. -/
theorem load_rewritten {f n r : List Byte} {i : Nat} (hf : f ∈ flavors) (hn : IsSymbol n) (hr : OpText r) (hr0 : r ≠ [])
    (hx : hasSub r (lit "%xmm") = false) (hg : getFullReg ⟨r, r.length⟩ = some (names64.getD i [])) :
    strDoGotpcrel (loadText f n r) = some
      ((lit "\tmov" ++ lit "q" ++ lit "\t" ++ ((n ++ gotpcrelSuffix) ++ lit ", " ++ names64.getD i [])) ++ 10#8 ::
       (lit "\tmov" ++ f ++ lit "\t" ++ ((lit "(" ++ names64.getD i [] ++ lit ")") ++ lit ", " ++ r))) := by
  obtain ⟨hl, hl16⟩ := flavors_letters f hf
  have hrip : hasSub (n ++ lit "(%rip)" ++ lit ", " ++ r) (lit "%rip") = true := by
    have := hasSub_mid (n ++ lit "(") (lit "%rip") (lit ")" ++ lit ", " ++ r)
    rw [show lit "(%rip)" = lit "(" ++ lit "%rip" ++ lit ")" from by decide +kernel]
    simpa only [List.append_assoc] using this
  obtain ⟨h1, h2⟩ := rip_global hn (lit ", " ++ r)
  rw [show ripSuffix = lit "(%rip)" from rfl] at h1 h2
  rw [← List.append_assoc] at h1 h2
  rw [loadText_eq, gotpcrel_parts hl hl16 (op_rip hn).1 (op_rip hn).2 hr hr0 hrip, h1, h2, hx, hg, if_pos rfl,
    if_neg (by simp), if_neg (by simp), Option.map_some]
  have hw : withoutRip ⟨n ++ lit "(%rip)" ++ lit ", " ++ r, (n ++ lit "(%rip)").length⟩ = n := by
    unfold withoutRip
    rw [show ripSuffix = lit "(%rip)" from rfl]
    dsimp only
    rw [List.length_append, Nat.add_sub_cancel, List.append_assoc, List.append_assoc, List.take_left]
  rw [hw, show lit "\tmovq\t" = lit "\tmov" ++ lit "q" ++ lit "\t" from by decide +kernel,
    show lit "\n\tmov" = 10#8 :: lit "\tmov" from by decide +kernel,
    show lit "\t(" = lit "\t" ++ lit "(" from by decide +kernel,
    show lit "), " = lit ")" ++ lit ", " from by decide +kernel]
  simp only [List.append_assoc, List.cons_append]

theorem setPart_twice (s : State) {i z : Nat} (hz : z = 4 ∨ z = 8) (u v : BitVec 64) :
    ((s.setPart ⟨i, 0, 8⟩ u).setPart ⟨i, 0, z⟩ v) = s.setPart ⟨i, 0, z⟩ v := by
  rcases hz with rfl | rfl
  · simp only [State.setPart]
    congr 1
    funext j
    by_cases h : j = i <;> simp [h]
  · simp only [State.setPart]
    congr 1
    funext j
    by_cases h : j = i <;> simp [h]

/-- The first instruction of the replacements: the address of the variable into a register. -/
theorem got_mov {L : Link} {s : State} {n : List Byte} {i : Nat} (hs : SlotFilled L s n) :
    mov L (lit "q") (.got n 0) (.reg ⟨i, 0, 8⟩) s = some (s.setPart ⟨i, 0, 8⟩ (L.addr n)) := by
  have hf : ∀ k, flavor (lit "q") k = some (8, 8, false) := by
    intro k
    unfold flavor
    rw [if_neg (by decide +kernel), if_neg (by decide +kernel), if_neg (by decide +kernel), if_neg (by decide +kernel),
      if_pos rfl]
  unfold mov
  rw [hf]
  have h0 : L.slot n + BitVec.ofNat 64 0 = L.slot n := by simp
  simp only [Option.bind_some, Operand.value, Operand.address, Option.map_some, h0, ↓reduceIte]
  have : widen 8 false (load s.mem (L.slot n) 8) = L.addr n := by
    rw [hs]
    simp [widen]
  rw [this]

/-- C63, loads into a 64-bit or 32-bit register: a load from a global variable and the instructions written in its place
end in the same state, for every symbol, register, size, extension and state, when the slot of the variable holds its
address.

Missing from the full statement: 8-bit and 16-bit destinations and variables with an offset, where it is false
(`C63_violated_byte`, `C63_violated_word`, `C63_violated_offset`). -/
theorem C63_load_partial {L : Link} {f n r : List Byte} {s s' : State} (hf : f ∈ flavors) (hn : IsSymbol n)
    (hr : r ∈ names64 ++ names32) (hslot : SlotFilled L s n) (hrun : run L (loadText f n r) s = some s') :
    ∃ out, strDoGotpcrel (loadText f n r) = some out ∧ run L out s = some s' := by
  obtain ⟨ho, ho0, hx, i, hi, z, hz, hg, hop⟩ := reg_load r hr
  obtain ⟨hao, hao0, haop, haind⟩ := reg_full i hi
  have hl := (flavors_letters f hf).1
  have hlq : Letters (lit "q") := by decide +kernel
  refine ⟨_, load_rewritten hf hn ho ho0 hx hg, ?_⟩
  have hpar : OpText (lit "(" ++ names64.getD i [] ++ lit ")") ∧ lit "(" ++ names64.getD i [] ++ lit ")" ≠ [] :=
    ⟨op_append (op_append (by decide +kernel) hao) (by decide +kernel), by
      rw [show lit "(" = [40#8] from by decide +kernel]; simp⟩
  rw [run_cons (line_nl hlq (op_got hn).1 hao), step_mov hlq (op_got hn).1 (op_got hn).2 hao hao0, operand_got hn, haop,
    Option.bind_some, Option.bind_some, got_mov hslot, Option.bind_some, run_one (line_nl hl hpar.1 ho),
    step_mov hl hpar.1 hpar.2 ho ho0, haind, hop, Option.bind_some, Option.bind_some]
  rw [loadText_eq, run_one (line_nl hl (op_rip hn).1 ho), step_mov hl (op_rip hn).1 (op_rip hn).2 ho ho0, operand_sym hn, hop,
    Option.bind_some, Option.bind_some] at hrun
  rw [← hrun]
  have h0 : L.addr n + BitVec.ofNat 64 0 = L.addr n := by simp
  have hz' : z = 4 ∨ z = 8 := by simpa using hz
  have hreg : (s.setPart ⟨i, 0, 8⟩ (L.addr n)).reg i = L.addr n := by simp [State.setPart]
  have hmem : (s.setPart ⟨i, 0, 8⟩ (L.addr n)).mem = s.mem := rfl
  unfold mov
  simp only [Operand.regSize, Operand.value, Operand.address, Option.map_some, Option.bind_some, hreg, hmem, h0,
    setPart_twice s hz']

/-! ### Stores -/

theorem rax_append {t rest : List Byte} : isRaxReference ⟨t ++ rest, t.length⟩ = isRaxReference ⟨t, t.length⟩ := by
  unfold isRaxReference Kpstr.at
  by_cases h : 2 < t.length
  · have h0 : (t ++ rest).getD 0 0 = t.getD 0 0 := by
      simp only [List.getD_eq_getElem?_getD]
      rw [List.getElem?_append_left (by omega)]
    have h2 : (t ++ rest).getD (t.length - 2) 0 = t.getD (t.length - 2) 0 := by
      simp only [List.getD_eq_getElem?_getD]
      rw [List.getElem?_append_left (by omega)]
    dsimp only
    rw [h0, h2]
  · simp [h]

/-- What a source looks like to the assembler and to the rewriting. -/
theorem source_ok {t : List Byte} (h : IsSource t) : OpText t ∧ t ≠ [] ∧
    (∀ rest, isGlobalRip ⟨t ++ rest, t.length⟩ = false) ∧
    ((∃ c, operand t = some (.const c) ∧ isRaxReference ⟨t, t.length⟩ = false) ∨
     ∃ i k z, i < 16 ∧ z ≤ 8 ∧ operand t = some (.reg ⟨i, k, z⟩) ∧ (isRaxReference ⟨t, t.length⟩ = true ↔ i = 0)) := by
  have hlen : ripSuffix.length = 6 := by decide +kernel
  rcases h with h | ⟨c, rfl, hc⟩
  · obtain ⟨h1, h2, h3, i, hi, k, _, z, hz, h4, h5⟩ := reg_store t h
    refine ⟨h1, h2, fun rest => ?_, .inr ⟨i, k, z, hi, ?_, h4, h5⟩⟩
    · unfold isGlobalRip endsWithCase
      rw [hlen, show decide (6 < (Kpstr.mk (t ++ rest) t.length).l) = false from decide_eq_false (by
        show ¬ 6 < t.length; omega)]
      rfl
    · simp only [List.mem_cons, List.not_mem_nil, or_false] at hz
      omega
  · refine ⟨?_, by simp, fun rest => ?_, .inl ⟨c, rfl, ?_⟩⟩
    · intro b hb
      rcases List.mem_cons.mp hb with rfl | hb
      · decide
      · have := hc b hb
        exact ⟨this.1, this.2.1, this.2.2.1, this.2.2.2.1, this.2.2.2.2.1⟩
    · rw [Bool.eq_false_iff]
      intro he
      unfold isGlobalRip at he
      rw [Bool.and_eq_true] at he
      have he := he.1
      unfold endsWithCase at he
      rw [Bool.and_eq_true, decide_eq_true_iff, decide_eq_true_iff, hlen] at he
      obtain ⟨hl, he⟩ := he
      dsimp only at hl he
      have hk : (36#8 :: c).length - 6 < (36#8 :: c).length := by omega
      have hhd : (((36#8 :: c ++ rest).drop ((36#8 :: c).length - 6)).take 6).head? =
          some ((36#8 :: c)[(36#8 :: c).length - 6]'hk) := by
        rw [List.head?_take, if_neg (by decide), List.head?_drop, List.getElem?_append_left hk]
        exact List.getElem?_eq_getElem hk
      have hmem := List.getElem_mem hk
      have := congrArg List.head? he
      rw [List.head?_map, hhd, show (ripSuffix.map lowerChar).head? = some 40#8 from by decide +kernel] at this
      simp only [Option.map_some, Option.some.injEq] at this
      have low : ∀ b : Byte, lowerChar b = 40#8 → b = 40#8 := by decide +kernel
      have h40 := low _ this
      rw [h40] at hmem
      rcases List.mem_cons.mp hmem with h | h
      · exact absurd h (by decide)
      · exact (hc _ h).2.2.2.2.2 rfl
    · unfold isRaxReference Kpstr.at
      simp

/-- The text in place of a store. -/
theorem store_rewritten {f n t : List Byte} {a : Nat} (hf : f ∈ flavors) (hn : IsSymbol n) (ht : IsSource t)
    (ha : a = if isRaxReference ⟨t, t.length⟩ = true then 3 else 0) :
    strDoGotpcrel (storeText f t n) = some
      ((lit "\tpushq\t" ++ names64.getD a []) ++ 10#8 ::
       ((lit "\tmov" ++ lit "q" ++ lit "\t" ++ ((n ++ gotpcrelSuffix) ++ lit ", " ++ names64.getD a [])) ++ 10#8 ::
       ((lit "\tmov" ++ f ++ lit "\t" ++ (t ++ lit ", " ++ (lit "(" ++ names64.getD a [] ++ lit ")"))) ++ 10#8 ::
       (lit "\tpopq\t" ++ names64.getD a [])))) := by
  obtain ⟨hl, hl16⟩ := flavors_letters f hf
  obtain ⟨ho, ho0, hng, -⟩ := source_ok ht
  have hrip : hasSub (t ++ lit ", " ++ (n ++ lit "(%rip)")) (lit "%rip") = true := by
    have := hasSub_mid (t ++ lit ", " ++ n ++ lit "(") (lit "%rip") (lit ")")
    rw [show lit "(%rip)" = lit "(" ++ lit "%rip" ++ lit ")" from by decide +kernel]
    simpa only [List.append_assoc] using this
  obtain ⟨h1, h2⟩ := rip_global hn []
  rw [show ripSuffix = lit "(%rip)" from rfl, List.append_nil] at h1 h2
  have hng' := hng (lit ", " ++ (n ++ lit "(%rip)"))
  rw [← List.append_assoc] at hng'
  have hrax := rax_append (t := t) (rest := lit ", " ++ (n ++ lit "(%rip)"))
  rw [← List.append_assoc] at hrax
  have haux : (if isRaxReference ⟨t ++ lit ", " ++ (n ++ lit "(%rip)"), t.length⟩ = true then lit "%rbx" else lit "%rax") =
      names64.getD a [] := by
    rw [hrax, ha]
    cases isRaxReference ⟨t, t.length⟩ <;> rfl
  rw [storeText_eq, gotpcrel_parts hl hl16 ho ho0 (op_rip hn).1 (op_rip hn).2 hrip, hng', h1, h2, haux, if_neg (by simp),
    if_pos rfl, if_neg (by simp)]
  have hw : withoutRip ⟨n ++ lit "(%rip)", (n ++ lit "(%rip)").length⟩ = n := by
    unfold withoutRip
    rw [show ripSuffix = lit "(%rip)" from rfl]
    dsimp only
    rw [List.length_append, Nat.add_sub_cancel, List.take_left]
  rw [hw, show lit "\n\tmovq\t" = 10#8 :: (lit "\tmov" ++ lit "q" ++ lit "\t") from by decide +kernel,
    show lit "\n\tmov" = 10#8 :: lit "\tmov" from by decide +kernel,
    show lit ", (" = lit ", " ++ lit "(" from by decide +kernel,
    show lit ")\n\tpopq\t" = lit ")" ++ (10#8 :: lit "\tpopq\t") from by decide +kernel]
  simp only [List.append_assoc, List.cons_append]

theorem flavor_le {f : List Byte} {k n m : Nat} {g : Bool} (h : flavor f k = some (n, m, g)) (hk : k ≤ 8) : n ≤ 8 := by
  unfold flavor at h
  grind (splits := 40)

/-- A store of a register or constant. -/
theorem mov_store {L : Link} {f : List Byte} {src d : Operand} {s : State} {x : BitVec 64}
    (hsrc : (∃ c, src = .const c) ∨ ∃ p, src = .reg p) (hd : d.address L s = some x) :
    mov L f src d s = (flavor f src.regSize).bind fun (n, m, _) => (src.value L s n).bind fun v =>
      if n = m then some { s with mem := store s.mem x n (BitVec.ofNat 64 v) } else none := by
  have hreg : d.regSize = 0 := by
    cases d <;> first | rfl | (simp [Operand.address] at hd)
  unfold mov
  rw [hreg, Nat.max_zero]
  congr 1
  funext ⟨n, m, g⟩
  dsimp only
  congr 1
  funext v
  cases d with
  | const c => simp [Operand.address] at hd
  | reg p => simp [Operand.address] at hd
  | sym _ _ | got _ _ | ind _ =>
    dsimp only
    rcases hsrc with ⟨c, rfl⟩ | ⟨p, rfl⟩ <;> simp only [hd, Option.map_some]

/-- C63, stores of a constant or of a register other than the stack pointer: a store to a global variable and the
instructions written in its place end with the same registers and the same memory, except for the eight bytes below the
stack pointer, for every symbol, source, size and state, when the slot of the variable holds its address and neither the
slot nor the variable lies in those eight bytes.

Missing from the full statement: the eight bytes below the stack pointer, the stack pointer as the source and variables
with an offset, where it is false (`C63_violated_redzone`, `C63_violated_rsp`, `C63_violated_offset`). -/
theorem C63_store_partial {L : Link} {f n t : List Byte} {s s' : State} (hf : f ∈ flavors) (hn : IsSymbol n)
    (ht : IsSource t) (hsp : ∀ p, partOf t = some p → p.num ≠ 4) (hslot : SlotFilled L s n)
    (hap : Apart (L.slot n) 8 (s.reg 4 - 8) 8) (hav : Apart (L.addr n) 8 (s.reg 4 - 8) 8)
    (hrun : run L (storeText f t n) s = some s') :
    ∃ out s'', strDoGotpcrel (storeText f t n) = some out ∧ run L out s = some s'' ∧
      s''.reg = s'.reg ∧ ∀ x, ¬ In x (s.reg 4 - 8) 8 → s''.mem x = s'.mem x := by
  obtain ⟨ho, ho0, -, hsrc⟩ := source_ok ht
  have hl := (flavors_letters f hf).1
  have hlq : Letters (lit "q") := by decide +kernel
  -- the source and the auxiliary register
  obtain ⟨a, src, ha, ha16, ha4, hop, hk, hz, hval⟩ : ∃ a src,
      a = (if isRaxReference ⟨t, t.length⟩ = true then 3 else 0) ∧ a < 16 ∧ a ≠ 4 ∧ operand t = some src ∧
      ((∃ c, src = .const c) ∨ ∃ p, src = .reg p) ∧ src.regSize ≤ 8 ∧
      ∀ k s1, (∀ i, i ≠ 4 → i ≠ a → s1.reg i = s.reg i) → src.value L s1 k = src.value L s k := by
    rcases hsrc with ⟨c, hop, hr⟩ | ⟨i, k, z, hi, hz, hop, hr⟩
    · refine ⟨0, .const c, by rw [hr]; rfl, by decide, by decide, hop, .inl ⟨c, rfl⟩, by simp [Operand.regSize], ?_⟩
      intros; rfl
    · have h4 : i ≠ 4 := by
        refine hsp ⟨i, k, z⟩ ?_
        rcases ht with ht | ⟨c, rfl, -⟩
        · have hpc : ∀ r ∈ names64 ++ names32 ++ names16 ++ names8 ++ namesHigh, operand r = (partOf r).map .reg := by
            decide +kernel
          rw [hpc t ht] at hop
          cases hp : partOf t with
          | none => rw [hp] at hop; simp at hop
          | some q => rw [hp] at hop; simpa using hop
        · simp [operand] at hop
      refine ⟨if isRaxReference ⟨t, t.length⟩ = true then 3 else 0, .reg ⟨i, k, z⟩, rfl, by split <;> decide,
        by split <;> decide, hop, .inr ⟨_, rfl⟩, hz, ?_⟩
      intro k s1 hs1
      have hia : i ≠ (if isRaxReference ⟨t, t.length⟩ = true then 3 else 0) := by
        cases hb : isRaxReference ⟨t, t.length⟩ with
        | true => have := hr.mp hb; simp; omega
        | false =>
          simp
          intro h0
          rw [hr.mpr h0] at hb
          exact absurd hb (by simp)
      simp only [Operand.value, hs1 i h4 hia]
  obtain ⟨hao, hao0, haop, haind⟩ := reg_full a ha16
  have hpar : OpText (lit "(" ++ names64.getD a [] ++ lit ")") ∧ lit "(" ++ names64.getD a [] ++ lit ")" ≠ [] :=
    ⟨op_append (op_append (by decide +kernel) hao) (by decide +kernel), by
      rw [show lit "(" = [40#8] from by decide +kernel]; simp⟩
  -- the original
  have h0 : (Operand.sym n 0).address L s = some (L.addr n) := by simp [Operand.address]
  rw [storeText_eq, run_one (line_nl hl ho (op_rip hn).1), step_mov hl ho ho0 (op_rip hn).1 (op_rip hn).2, operand_sym hn, hop,
    Option.bind_some, Option.bind_some, mov_store hk h0] at hrun
  obtain ⟨⟨k, m, g⟩, hfl, hrun⟩ := Option.bind_eq_some_iff.mp hrun
  obtain ⟨v, hv, hrun⟩ := Option.bind_eq_some_iff.mp hrun
  by_cases hkm : k = m
  · rw [if_pos hkm, Option.some.injEq] at hrun
    have hk8 := flavor_le hfl hz
    -- the states between the instructions
    let s1 : State := { reg := fun i => if i = 4 then s.reg 4 - 8 else s.reg i, mem := store s.mem (s.reg 4 - 8) 8 (s.reg a) }
    let s2 : State := s1.setPart ⟨a, 0, 8⟩ (L.addr n)
    let s3 : State := { s2 with mem := store s2.mem (L.addr n) k (BitVec.ofNat 64 v) }
    have hpush : push (.reg ⟨a, 0, 8⟩) s = some s1 := rfl
    have hs1 : SlotFilled L s1 n := by
      unfold SlotFilled
      rw [← hslot]
      exact load_congr fun x hx => store_other fun hx2 => hap x ⟨hx, hx2⟩
    have h2reg : ∀ i, i ≠ 4 → i ≠ a → s2.reg i = s.reg i := by
      intro i h4 hia
      simp only [s2, s1, State.setPart, hia, h4, ↓reduceIte]
    have h2a : s2.reg a = L.addr n := by simp [s2, State.setPart]
    have h24 : s2.reg 4 = s.reg 4 - 8 := by
      simp only [s2, s1, State.setPart, fun h => ha4 (Eq.symm h), ↓reduceIte]
      simp only [Ne.symm ha4, ↓reduceIte]
    have h2m : s2.mem = store s.mem (s.reg 4 - 8) 8 (s.reg a) := rfl
    have hmov : mov L f src (.ind a) s2 = some s3 := by
      rw [mov_store hk (d := .ind a) (x := L.addr n) (by simp only [Operand.address, h2a]), hfl, Option.bind_some]
      dsimp only
      rw [hval k s2 h2reg, hv, Option.bind_some, if_pos hkm]
    let r4 : Nat → BitVec 64 := fun i =>
      if i = a then BitVec.ofNat 64 (load s3.mem (s3.reg 4) 8) else if i = 4 then s3.reg 4 + 8 else s3.reg i
    have hpop : pop (.reg ⟨a, 0, 8⟩) s3 = some { s3 with reg := r4 } := rfl
    refine ⟨_, { s3 with reg := r4 },
      store_rewritten hf hn ht ha, ?_, ?_, ?_⟩
    · have hnl1 : ∀ c ∈ lit "\tpushq\t" ++ names64.getD a [], c ≠ 10#8 := by
        intro c hc
        rcases List.mem_append.mp hc with h | h
        · have h1 : ∀ c ∈ lit "\tpushq\t", c ≠ 10#8 := by decide +kernel
          exact h1 c h
        · exact (hao c h).2.2.2.1
      have hnl2 : ∀ c ∈ lit "\tpopq\t" ++ names64.getD a [], c ≠ 10#8 := by
        intro c hc
        rcases List.mem_append.mp hc with h | h
        · have h1 : ∀ c ∈ lit "\tpopq\t", c ≠ 10#8 := by decide +kernel
          exact h1 c h
        · exact (hao c h).2.2.2.1
      rw [run_cons hnl1, (step_stack hao hao0 L s).1, haop, Option.bind_some, hpush, Option.bind_some,
        run_cons (line_nl hlq (op_got hn).1 hao), step_mov hlq (op_got hn).1 (op_got hn).2 hao hao0, operand_got hn, haop,
        Option.bind_some, Option.bind_some, got_mov hs1, Option.bind_some,
        run_cons (line_nl hl ho hpar.1), step_mov hl ho ho0 hpar.1 hpar.2, hop, haind, Option.bind_some, Option.bind_some,
        show s1.setPart ⟨a, 0, 8⟩ (L.addr n) = s2 from rfl, hmov, Option.bind_some, run_one hnl2,
        (step_stack hao hao0 L s3).2, haop, Option.bind_some, hpop]
    · subst hrun
      funext i
      have h34 : s3.reg 4 = s.reg 4 - 8 := h24
      have hld : load s3.mem (s.reg 4 - 8) 8 = (s.reg a).toNat := by
        rw [← load_store s.mem (s.reg 4 - 8) (s.reg a)]
        refine load_congr fun x hx => ?_
        refine store_other fun hx2 => hav x ⟨?_, hx⟩
        unfold In at hx2 ⊢
        omega
      simp only [r4]
      rw [h34, hld]
      by_cases hia : i = a
      · subst hia; simp
      · rw [if_neg hia]
        by_cases h4 : i = 4
        · subst h4
          rw [if_pos rfl]
          show s.reg 4 - 8 + 8 = s.reg 4
          grind
        · rw [if_neg h4]
          exact h2reg i h4 hia
    · subst hrun
      intro x hx
      show store s2.mem (L.addr n) k (BitVec.ofNat 64 v) x = store s.mem (L.addr n) k (BitVec.ofNat 64 v) x
      by_cases hxa : In x (L.addr n) k
      · exact store_same hxa
      · rw [store_other hxa, store_other hxa, h2m, store_other hx]
  · rw [if_neg hkm] at hrun
    exact absurd hrun (by simp)

/-! ### Lines that stay -/

theorem hasSub_suffix {a b n : List Byte} (h : a <:+ b) (ha : hasSub a n = true) : hasSub b n = true := by
  obtain ⟨p, rfl⟩ := h
  induction p with
  | nil => exact ha
  | cons c p ih => rw [List.cons_append, hasSub, ih, Bool.or_true]

/-- C63: a line that does not mention %rip is never changed. -/
theorem C63_other {src out : List Byte} (h : strDoGotpcrel src = some out) (hr : ¬ ∃ a b, src = a ++ lit "%rip" ++ b) :
    out = src := by
  have hr : hasSub src (lit "%rip") = false := by
    rw [Bool.eq_false_iff]
    intro ht
    obtain ⟨j, b, hb⟩ := (hasSub_iff _ (by decide +kernel) src).mp ht
    exact hr ⟨src.take j, b, by rw [List.append_assoc, hb, List.take_append_drop]⟩
  obtain ⟨s, hs, -, h3⟩ := getTokenD_sub delims (some src)
  have hs' : s <:+ src := by
    rcases hs with h | h
    · simp only [Option.some.injEq] at h; rw [h]; exact List.suffix_refl _
    · rw [h]; exact List.nil_suffix
  unfold strDoGotpcrel at h
  have he : (getToken (some src)) = ((getToken (some src)).1, (getToken (some src)).2) := rfl
  rw [he] at h
  dsimp only at h
  by_cases hm : kpstrncmpz (getToken (some src)).1 (lit "mov") ≠ 0
  · rw [if_pos hm] at h
    simpa using h.symm
  · rw [if_neg hm] at h
    cases hn : (getToken (some src)).2 with
    | none => rw [hn] at h; simp at h
    | some s1 =>
      rw [hn] at h
      dsimp only at h
      have h1 : hasSub s1 (lit "%rip") = false := by
        rw [Bool.eq_false_iff]
        intro ht
        rw [hasSub_suffix ((h3 s1 hn).trans hs') ht] at hr
        exact absurd hr (by simp)
      rw [h1, if_pos rfl] at h
      simpa using h.symm

theorem rip_in (A : List Byte) : ∀ B, hasSub (A ++ lit "(%rip)" ++ lit ", " ++ B) (lit "%rip") = true := by
  intro B
  have := hasSub_mid (A ++ lit "(") (lit "%rip") (lit ")" ++ lit ", " ++ B)
  rw [show lit "(%rip)" = lit "(" ++ lit "%rip" ++ lit ")" from by decide +kernel]
  simpa only [List.append_assoc] using this

/-- C63: loads from local labels, `.L...`, into registers are never changed. -/
theorem C63_local {f x r : List Byte} (hf : f ∈ flavors) (hx : OpText x)
    (hr : r ∈ names64 ++ names32 ++ names16 ++ names8 ++ namesHigh) :
    strDoGotpcrel (loadText f (lit ".L" ++ x) r) = some (loadText f (lit ".L" ++ x) r) := by
  obtain ⟨hl, hl16⟩ := flavors_letters f hf
  obtain ⟨ho, ho0, -, -⟩ := source_ok (.inl hr)
  have hA : OpText (lit ".L" ++ x ++ lit "(%rip)") := op_append (op_append (by decide +kernel) hx) (by decide +kernel)
  have hlit : lit ".L" = [46#8, 76#8] := by decide +kernel
  have hA0 : lit ".L" ++ x ++ lit "(%rip)" ≠ [] := by rw [hlit]; simp
  have h1 : isGlobalRip ⟨lit ".L" ++ x ++ lit "(%rip)" ++ lit ", " ++ r, (lit ".L" ++ x ++ lit "(%rip)").length⟩ = false := by
    unfold isGlobalRip
    rw [Bool.and_eq_false_iff]
    right
    rw [hlit]
    simp [Kpstr.at]
  have h2 : isGlobalRip ⟨r, r.length⟩ = false := by
    have := (source_ok (.inl hr)).2.2.1 []
    rwa [List.append_nil] at this
  rw [loadText_eq, gotpcrel_parts hl hl16 hA hA0 ho ho0 (rip_in _ _), h1, h2]
  rfl

/-- C63: loads that go through the global offset table already, of symbols with two or more characters, are never changed.
For one character see `C63_violated_short`. -/
theorem C63_got_partial {f n r : List Byte} (hf : f ∈ flavors) (hn : IsSymbol n) (h2 : 2 ≤ n.length)
    (hr : r ∈ names64 ++ names32 ++ names16 ++ names8 ++ namesHigh) :
    strDoGotpcrel (loadText f (n ++ lit "@GOTPCREL") r) = some (loadText f (n ++ lit "@GOTPCREL") r) := by
  obtain ⟨hl, hl16⟩ := flavors_letters f hf
  obtain ⟨ho, ho0, -, -⟩ := source_ok (.inl hr)
  have hA : OpText (n ++ lit "@GOTPCREL" ++ lit "(%rip)") :=
    op_append (op_append (symbol_op hn).1 (by decide +kernel)) (by decide +kernel)
  have hA0 : n ++ lit "@GOTPCREL" ++ lit "(%rip)" ≠ [] := by simp [hn.1]
  have h3 : isGlobalRip ⟨r, r.length⟩ = false := by
    have := (source_ok (.inl hr)).2.2.1 []
    rwa [List.append_nil] at this
  have h4 : isGotpcrel ⟨n ++ lit "@GOTPCREL" ++ lit "(%rip)" ++ lit ", " ++ r, (n ++ lit "@GOTPCREL" ++ lit "(%rip)").length⟩ = true := by
    unfold isGotpcrel
    rw [Bool.or_eq_true]
    left
    unfold endsWithCase
    rw [Bool.and_eq_true, decide_eq_true_iff, decide_eq_true_iff]
    have hg : gotpcrelSuffix = lit "@GOTPCREL" ++ lit "(%rip)" := by decide +kernel
    have hlen : (lit "@GOTPCREL" ++ lit "(%rip)").length = 15 := by decide +kernel
    rw [hg, List.append_assoc n]
    dsimp only
    rw [hlen, List.length_append, hlen]
    constructor
    · omega
    · rw [← hlen, Nat.add_sub_cancel, List.append_assoc n, List.append_assoc n, List.drop_left,
        List.append_assoc (lit "@GOTPCREL" ++ lit "(%rip)"), List.take_left]
  rw [loadText_eq, gotpcrel_parts hl hl16 hA hA0 ho ho0 (rip_in _ _), h4, h3]
  split <;> rfl

/-! ### The hypotheses are met, and the full statement is false -/

/-- `count` is at 0x1000 and holds 0x8877665544332211; its slot is at 0x2000. -/
def exLink : Link := { addr := fun _ => 0x1000, slot := fun _ => 0x2000, const := fun _ => 7 }

def exMem : BitVec 64 → Byte := store (store (fun _ => 0) 0x1000 8 0x8877665544332211) 0x2000 8 0x1000

/-- Every register holds its number in every byte; the stack pointer is 0x7f00. -/
def exState : State := { reg := fun i => if i = 4 then 0x7f00 else BitVec.ofNat 64 (i * 0x0101010101010101), mem := exMem }

theorem exSlot (n : List Byte) : SlotFilled exLink exState n := by
  show load exMem 0x2000 8 = 0x1000
  decide +kernel

instance (n : List Byte) : Decidable (IsSymbol n) := by unfold IsSymbol; infer_instance

def count : List Byte := lit "count"

theorem count_symbol : IsSymbol count := by decide +kernel

/-- The text written in place of a load and a store. -/
example : strDoGotpcrel (lit "\tmovzbl\tcount(%rip), %r12d") =
      some (lit "\tmovq\tcount@GOTPCREL(%rip), %r12\n\tmovzbl\t(%r12), %r12d") ∧
    strDoGotpcrel (lit "\tmovl\t%eax, count(%rip)") =
      some (lit "\tpushq\t%rbx\n\tmovq\tcount@GOTPCREL(%rip), %rbx\n\tmovl\t%eax, (%rbx)\n\tpopq\t%rbx") := by
  decide +kernel

/-- The hypotheses of `C63_load_partial` and what the load does. -/
example : lit "slq" ∈ flavors ∧ lit "%r12" ∈ names64 ++ names32 ∧ SlotFilled exLink exState count ∧
    (run exLink (loadText (lit "slq") count (lit "%r12")) exState).map (fun s => (s.reg 12, s.reg 13)) =
      some (0x44332211, 0x0d0d0d0d0d0d0d0d) :=
  ⟨by decide +kernel, by decide +kernel, exSlot _, by decide +kernel⟩

theorem ex_apart : Apart 0x2000 8 (exState.reg 4 - 8) 8 ∧ Apart 0x1000 8 (exState.reg 4 - 8) 8 := by
  have e : exState.reg 4 - 8 = 0x7ef8#64 := by decide +kernel
  rw [e]
  constructor <;>
  · intro x hx
    unfold In at hx
    bv_omega

/-- The hypotheses of `C63_store_partial` and what the store does. -/
example : lit "l" ∈ flavors ∧ IsSource (lit "%eax") ∧ IsSource (lit "$7") ∧ (∀ p, partOf (lit "%eax") = some p → p.num ≠ 4) ∧
    SlotFilled exLink exState count ∧ Apart (exLink.slot count) 8 (exState.reg 4 - 8) 8 ∧
    Apart (exLink.addr count) 8 (exState.reg 4 - 8) 8 ∧
    (run exLink (storeText (lit "l") (lit "$7") count) exState).map (fun s => load s.mem 0x1000 8) =
      some 0x8877665500000007 := by
  refine ⟨by decide +kernel, .inl (by decide +kernel), .inr ⟨[55#8], by decide +kernel, by decide⟩, ?_, exSlot _,
    ex_apart.1, ex_apart.2, by decide +kernel⟩
  intro p hp
  rw [show partOf (lit "%eax") = some ⟨0, 0, 4⟩ from by decide +kernel] at hp
  simp only [Option.some.injEq] at hp
  subst hp
  decide

/-- The register after the line and after the text in its place. -/
def regBoth (r : Nat) (src : List Byte) : Option (BitVec 64) × Option (BitVec 64) :=
  ((run exLink src exState).map (·.reg r), ((strDoGotpcrel src).bind (run exLink · exState)).map (·.reg r))

/-- C63 does not hold for loads of a byte into a part of a register: the rest of the register is lost. -/
theorem C63_violated_byte : SlotFilled exLink exState count ∧
    regBoth 1 (lit "\tmovb\tcount(%rip), %cl") = (some 0x0101010101010111, some 0x1011) :=
  ⟨exSlot _, by decide +kernel⟩

/-- C63 does not hold for loads of 16 bits into some registers: the text names a register that does not exist. -/
theorem C63_violated_word : SlotFilled exLink exState count ∧
    strDoGotpcrel (lit "\tmovw\tcount(%rip), %r12w") =
      some (lit "\tmovq\tcount@GOTPCREL(%rip), %r2w\n\tmovw\t(%r2w), %r12w") ∧
    regBoth 12 (lit "\tmovw\tcount(%rip), %r12w") = (some 0x0c0c0c0c0c0c2211, none) :=
  ⟨exSlot _, by decide +kernel, by decide +kernel⟩

/-- C63 does not hold for a variable with an offset: the offset is added to the slot, not to the variable. -/
theorem C63_violated_offset : SlotFilled exLink exState count ∧
    strDoGotpcrel (lit "\tmovl\tcount+4(%rip), %ecx") =
      some (lit "\tmovq\tcount+4@GOTPCREL(%rip), %rcx\n\tmovl\t(%rcx), %ecx") ∧
    (run exLink (lit "\tmovl\tcount+4(%rip), %ecx") exState).map (·.reg 1) = some 0x88776655 ∧
    (run exLink (lit "\tmovq\tcount+4@GOTPCREL(%rip), %rcx\n\tmovl\t(%rcx), %ecx") exState).map (·.reg 1) ≠
      some 0x88776655 :=
  ⟨exSlot _, by decide +kernel, by decide +kernel, by decide +kernel⟩

/-- C63 does not hold for stores of the stack pointer: the pushed register moves it. -/
theorem C63_violated_rsp : SlotFilled exLink exState count ∧
    (run exLink (lit "\tmovq\t%rsp, count(%rip)") exState).map (fun s => load s.mem 0x1000 8) = some 0x7f00 ∧
    ((strDoGotpcrel (lit "\tmovq\t%rsp, count(%rip)")).bind (run exLink · exState)).map (fun s => load s.mem 0x1000 8) =
      some 0x7ef8 :=
  ⟨exSlot _, by decide +kernel, by decide +kernel⟩

/-- C63 does not hold for the bytes below the stack pointer, which a leaf function may use: a store overwrites them. -/
theorem C63_violated_redzone : SlotFilled exLink exState count ∧
    (run exLink (lit "\tmovl\t%eax, count(%rip)") exState).map (fun s => load s.mem 0x7ef8 8) = some 0 ∧
    ((strDoGotpcrel (lit "\tmovl\t%eax, count(%rip)")).bind (run exLink · exState)).map (fun s => load s.mem 0x7ef8 8) =
      some 0x0303030303030303 :=
  ⟨exSlot _, by decide +kernel, by decide +kernel⟩

/-- C63 does not hold for symbols of one character: a load through the table is rewritten once more, into a text the
assembler rejects. -/
theorem C63_violated_short :
    strDoGotpcrel (lit "\tmovq\tx@GOTPCREL(%rip), %rcx") =
      some (lit "\tmovq\tx@GOTPCREL@GOTPCREL(%rip), %rcx\n\tmovq\t(%rcx), %rcx") ∧
    regBoth 1 (lit "\tmovq\tx@GOTPCREL(%rip), %rcx") = (some 0x1000, none) :=
  ⟨by decide +kernel, by decide +kernel⟩

/-- C63 does not hold for string moves, which have no operands: the program crashes (strstr of a null pointer). -/
theorem C63_violated_string : strDoGotpcrel (lit "\tmovsb") = none := by decide +kernel

end Verif.X86
