import Verif.Proof.GenPatch
import Verif.Props.Split
import Verif.Props.GenPatch
/-
C97: variables declared with `.comm`.
-/
namespace Verif

section Target
variable [AsmTarget]

/-! ### Specification -/

/-- A name that the parser takes as one word: no blank, no separator, no quotation mark in front and no NUL. -/
def SymWord (w : List Byte) : Prop :=
  w ≠ [] ∧ (∀ c ∈ w, c ∉ [32#8, 9#8, 44#8, 59#8, 58#8, 45#8, 43#8, 42#8, 40#8, 41#8, 91#8, 93#8, 36#8, 10#8, 0#8]) ∧ w.head? ≠ some 34#8

/-- A number as it is written in decimal, of any number of digits. -/
def numeral (n : Nat) : List Byte := (Nat.toDigits 10 n).map fun c => BitVec.ofNat 8 c.toNat

/-- `.comm nm,sz,al`, as compilers write it. -/
def commText (nm : List Byte) (sz al : Nat) : List Byte := lit "\t.comm\t" ++ nm ++ lit "," ++ numeral sz ++ lit "," ++ numeral al

/-- `.comm nm,sz`, as compilers write it if there is no alignment. -/
def commText' (nm : List Byte) (sz : Nat) : List Byte := lit "\t.comm\t" ++ nm ++ lit "," ++ numeral sz

/-! ### Tokens -/

theorem SymWord.getToken {b w r : List Byte} (hb : AllBlank b) (hw : SymWord w) (hr : r = [] ∨ ∃ c ∈ delims, r.head? = some c) :
    getToken (some (b ++ (w ++ r))) = (⟨w ++ r, w.length⟩, if atEnd (skipBlanks r) then none else some (skipBlanks r)) := by
  obtain ⟨h1, h2, h3⟩ := hw
  have hd : ∀ c ∈ w, delims.contains c = false := by
    intro c hc
    have := h2 c hc
    simp only [delims, List.contains_eq_mem, decide_eq_false_iff_not]
    intro hm
    refine this ?_
    show c ∈ [32#8, 9#8, 44#8, 59#8, 58#8, 45#8, 43#8, 42#8, 40#8, 41#8, 91#8, 93#8, 36#8, 10#8] ++ [0#8]
    exact List.mem_append_left _ hm
  obtain ⟨c, w', rfl⟩ : ∃ c w', w = c :: w' := by cases w with | nil => exact absurd rfl h1 | cons c w => exact ⟨c, w, rfl⟩
  have hcb : isBlank c = false := by
    have := h2 c (by simp)
    simp only [List.mem_cons, not_or] at this
    simp [isBlank, this]
  have hs : skipBlanks (b ++ (c :: w' ++ r)) = c :: w' ++ r := by
    rw [skipBlanks_append_blank hb]
    exact skipBlanks_head (by intro d hd; simp at hd; subst hd; exact hcb)
  have hc10 : c ≠ 10#8 := by have := h2 c (by simp); simp only [List.mem_cons, not_or] at this; exact this.2.2.2.2.2.2.2.2.2.2.2.2.2.1
  have hend : atEnd (c :: w' ++ r) = false := by simp [atEnd, hc10]
  have hdrop : (c :: w' ++ r).dropWhile (fun c => !delims.contains c) = r := by
    rw [List.dropWhile_append_of_pos (by intro d hd'; simp only [hd d hd', Bool.not_false])]
    rcases hr with rfl | ⟨d, hd, hr⟩
    · rfl
    · cases r with
      | nil => rfl
      | cons e r =>
        simp only [List.head?_cons, Option.some.injEq] at hr
        subst hr
        rw [List.dropWhile_cons, if_neg]
        simp [List.contains_eq_mem, hd]
  have htok : tokenEnd delims (c :: w' ++ r) = r := by
    have hq : (c :: w' ++ r).head? ≠ some 34#8 := by simpa using h3
    unfold tokenEnd
    simp only [if_neg hq, hdrop]
    rw [if_neg]
    simp only [List.cons_append, List.length_cons, List.length_append]
    omega
  unfold Verif.getToken getTokenD
  simp only [hs, hend, htok]
  rw [if_neg (by simp)]
  congr 2
  simp only [List.length_append]
  omega

theorem getToken_commaWord {w r : List Byte} (hw : SymWord w) :
    getToken (some (44#8 :: (w ++ r))) = (⟨44#8 :: (w ++ r), 1⟩, some (w ++ r)) := by
  obtain ⟨h1, h2, h3⟩ := hw
  obtain ⟨c, w', rfl⟩ : ∃ c w', w = c :: w' := by cases w with | nil => exact absurd rfl h1 | cons c w => exact ⟨c, w, rfl⟩
  have hc := h2 c (by simp)
  simp only [List.mem_cons, not_or] at hc
  have hcb : isBlank c = false := by simp [isBlank, hc]
  have hs : skipBlanks (44#8 :: (c :: w' ++ r)) = 44#8 :: (c :: w' ++ r) :=
    skipBlanks_head (by intro d hd; simp at hd; subst hd; decide)
  have hs' : skipBlanks (c :: w' ++ r) = c :: w' ++ r := skipBlanks_head (by intro d hd; simp at hd; subst hd; exact hcb)
  have htok : tokenEnd delims (44#8 :: (c :: w' ++ r)) = c :: w' ++ r := by
    have hq : (44#8 :: (c :: w' ++ r)).head? ≠ some 34#8 := by simp
    have hdr : (44#8 :: (c :: w' ++ r)).dropWhile (fun c => !delims.contains c) = 44#8 :: (c :: w' ++ r) := by
      rw [List.dropWhile_cons, if_neg (by simp [delims])]
    unfold tokenEnd
    simp only [if_neg hq, hdr, if_pos]
    rfl
  have e1 : atEnd (44#8 :: (c :: w' ++ r)) = false := by simp [atEnd]
  have e2 : atEnd (c :: w' ++ r) = false := by simp [atEnd, hc]
  unfold getToken getTokenD
  simp only [hs, htok, hs', e1, e2]
  rw [if_neg (by simp), if_neg (by simp)]
  congr 2
  simp

theorem digit_byte {c : Char} (h : c.isDigit = true) : (BitVec.ofNat 8 c.toNat).toNat = c.toNat ∧ 48 ≤ c.toNat ∧ c.toNat ≤ 57 := by
  have : 48 ≤ c.toNat ∧ c.toNat ≤ 57 := by
    simp only [Char.isDigit, Bool.and_eq_true, decide_eq_true_eq, ge_iff_le, UInt32.le_iff_toNat_le] at h
    exact h
  exact ⟨by simp only [BitVec.toNat_ofNat]; omega, this⟩

theorem numeral_digit {n : Nat} {b : Byte} (h : b ∈ numeral n) : 48 ≤ b.toNat ∧ b.toNat ≤ 57 := by
  obtain ⟨c, hc, rfl⟩ := List.mem_map.1 h
  have := digit_byte (Nat.isDigit_of_mem_toDigits (by decide) (by decide) hc)
  omega

theorem numeral_word (n : Nat) : SymWord (numeral n) := by
  refine ⟨by simp [numeral, Nat.toDigits_ne_nil], fun c hc hm => ?_, fun h => ?_⟩
  · have := numeral_digit hc
    simp only [List.mem_cons, List.not_mem_nil, or_false] at hm
    rcases hm with e | e | e | e | e | e | e | e | e | e | e | e | e | e | e <;> subst e <;> revert this <;> decide
  · have := numeral_digit (List.mem_of_head? h)
    revert this; decide

theorem foldl_digits (l : List Char) (h : ∀ c ∈ l, c.isDigit = true) (k : Nat) :
    (l.map fun c => BitVec.ofNat 8 c.toNat).foldl (fun n (c : Byte) => n * 10 + (c.toNat - 48)) k = Nat.ofDigitChars 10 l k := by
  induction l generalizing k with
  | nil => rfl
  | cons c l ih =>
    rw [List.map_cons, List.foldl_cons, ih fun d hd => h d (by simp [hd]), (digit_byte (h c (by simp))).1]
    simp only [Nat.ofDigitChars, List.foldl_cons]
    congr 1
    simp [Nat.mul_comm]

theorem tokNumber_numeral (n : Nat) (r : List Byte) (k : Nat) (hr : r = [] ∨ r.head? = some 44#8) :
    tokNumber ⟨numeral n ++ r, k⟩ = some n := by
  have ht : (numeral n ++ r).takeWhile isDigitChar = numeral n := by
    rw [List.takeWhile_append_of_pos (fun c hc => by have := numeral_digit hc; simp [isDigitChar, this])]
    rcases hr with rfl | hr
    · simp
    · cases r with
      | nil => simp
      | cons e r =>
        simp only [List.head?_cons, Option.some.injEq] at hr
        subst hr
        rw [List.takeWhile_cons, if_neg (by decide)]
        simp
  unfold tokNumber
  simp only [ht, if_neg (numeral_word n).1]
  rw [numeral, foldl_digits _ (fun c hc => Nat.isDigit_of_mem_toDigits (by decide) (by decide) hc), Nat.ofDigitChars_toDigits (by decide) (by decide)]

theorem tok_is {t : Kpstr} {p : List Byte} (h : t.Ok) (e : t.text = p) : kpstrcmpz t p = 0 := by
  unfold kpstrcmpz
  rw [kpstrcmp_zero h (kpz_ok _), kpz_text]
  exact e

theorem lit_comm : lit "\t.comm\t" = [9#8] ++ (lit ".comm" ++ [9#8]) := by decide +kernel

theorem comm_word : SymWord (lit ".comm") := by unfold SymWord; decide +kernel

theorem lit_comma : lit "," = [44#8] := by decide +kernel

/-- What `.comm nm,` is parsed to, up to the comma. -/
theorem commArgs_start {nm w r : List Byte} (hn : SymWord nm) (hw : SymWord w) :
    commArgs (lit "\t.comm\t" ++ nm ++ lit "," ++ w ++ r) =
      ((tokNumber (getToken (some (w ++ r))).1).bind fun sz =>
        match (getToken (some (w ++ r))).2 with
        | none => some (⟨nm ++ (44#8 :: (w ++ r)), nm.length⟩, sz, 0)
        | some s =>
          if kpstrcmpz (getToken (some s)).1 (lit ",") ≠ 0 then none
          else (tokNumber (getToken (getToken (some s)).2).1).map fun al => (⟨nm ++ (44#8 :: (w ++ r)), nm.length⟩, sz, al)) := by
  have e0 : lit "\t.comm\t" ++ nm ++ lit "," ++ w ++ r = [9#8] ++ (lit ".comm" ++ (9#8 :: (nm ++ (44#8 :: (w ++ r))))) := by
    rw [lit_comm, lit_comma]; simp
  have g1 := SymWord.getToken (b := [9#8]) (r := 9#8 :: (nm ++ (44#8 :: (w ++ r)))) (by intro c hc; simp at hc; subst hc; decide) comm_word
    (Or.inr ⟨9#8, by decide, rfl⟩)
  have hnh : ∀ c, (nm ++ (44#8 :: (w ++ r))).head? = some c → isBlank c = false ∧ c ≠ 10#8 := by
    intro c hc
    obtain ⟨h1, h2, _⟩ := hn
    cases nm with
    | nil => exact absurd rfl h1
    | cons d nm =>
      simp at hc
      subst hc
      have := h2 d (by simp)
      simp only [List.mem_cons, not_or] at this
      exact ⟨by simp [isBlank, this], this.2.2.2.2.2.2.2.2.2.2.2.2.2.1⟩
  have s1 : skipBlanks (9#8 :: (nm ++ (44#8 :: (w ++ r)))) = nm ++ (44#8 :: (w ++ r)) := by
    have := skipBlanks_append_blank (b := [9#8]) (s := nm ++ (44#8 :: (w ++ r))) (by intro c hc; simp at hc; subst hc; decide)
    rw [List.singleton_append] at this
    rw [this]
    exact skipBlanks_head fun c hc => (hnh c hc).1
  have a1 : atEnd (nm ++ (44#8 :: (w ++ r))) = false := by
    unfold atEnd
    cases hx : nm ++ (44#8 :: (w ++ r)) with
    | nil => simp at hx
    | cons c l => have := (hnh c (by rw [hx]; rfl)).2; simp [this]
  rw [s1, a1, if_neg (by simp)] at g1
  have g2 := SymWord.getToken (b := []) (r := 44#8 :: (w ++ r)) (by intro c hc; cases hc) hn (Or.inr ⟨44#8, by decide, rfl⟩)
  rw [List.nil_append] at g2
  have s2 : skipBlanks (44#8 :: (w ++ r)) = 44#8 :: (w ++ r) := skipBlanks_head (by intro d hd; simp at hd; subst hd; decide)
  rw [s2, show atEnd (44#8 :: (w ++ r)) = false by simp [atEnd], if_neg (by simp)] at g2
  have g3 := getToken_commaWord (r := r) hw
  have k1 : kpstrcmpz ⟨lit ".comm" ++ (9#8 :: (nm ++ (44#8 :: (w ++ r)))), (lit ".comm").length⟩ (lit ".comm") = 0 :=
    tok_is (by simp [Kpstr.Ok]) (by simp [Kpstr.text])
  have k2 : kpstrcmpz ⟨44#8 :: (w ++ r), 1⟩ (lit ",") = 0 := tok_is (by simp [Kpstr.Ok]) (by simp [Kpstr.text, lit_comma])
  rw [e0]
  unfold commArgs
  simp only [g1, g2, g3, k1, k2, ne_eq, not_true_eq_false, if_false, ↓reduceIte]
  cases (getToken (some (w ++ r))).2 with
  | none => rfl
  | some s => rfl

/-- The statement is parsed to the name, the size and the alignment it gives. -/
theorem commArgs_text {nm : List Byte} (hn : SymWord nm) (sz al : Nat) : ∃ k : Kpstr, k.Ok ∧ k.text = nm ∧
    commArgs (commText nm sz al) = some (k, sz, al) := by
  refine ⟨_, ?_, ?_, (show commArgs (commText nm sz al) = some (⟨nm ++ (44#8 :: (numeral sz ++ (44#8 :: numeral al))), nm.length⟩, sz, al) from ?_)⟩
  · simp [Kpstr.Ok]
  · simp [Kpstr.text]
  · have e : commText nm sz al = lit "\t.comm\t" ++ nm ++ lit "," ++ numeral sz ++ (44#8 :: numeral al) := by
      unfold commText; rw [lit_comma]; simp
    have g1 := SymWord.getToken (b := []) (r := 44#8 :: numeral al) (by intro c hc; cases hc) (numeral_word sz) (Or.inr ⟨44#8, by decide, rfl⟩)
    have s2 : skipBlanks (44#8 :: numeral al) = 44#8 :: numeral al := skipBlanks_head (by intro d hd; simp at hd; subst hd; decide)
    rw [List.nil_append, s2, show atEnd (44#8 :: numeral al) = false by simp [atEnd], if_neg (by simp)] at g1
    have g2 := getToken_commaWord (r := []) (numeral_word al)
    have g3 := SymWord.getToken (b := []) (r := []) (by intro c hc; cases hc) (numeral_word al) (Or.inl rfl)
    simp only [List.append_nil, List.nil_append] at g2 g3
    rw [e, commArgs_start hn (numeral_word sz), g1]
    have k2 : kpstrcmpz ⟨44#8 :: numeral al, 1⟩ (lit ",") = 0 := tok_is (by simp [Kpstr.Ok]) (by simp [Kpstr.text, lit_comma])
    have n2 := tokNumber_numeral al [] (numeral al).length (Or.inl rfl)
    rw [List.append_nil] at n2
    simp only [tokNumber_numeral sz (44#8 :: numeral al) _ (Or.inr rfl), Option.bind_some, g2, g3, k2, n2, Option.map_some, ne_eq, not_true_eq_false, if_false, ↓reduceIte]

/-- The same without an alignment. -/
theorem commArgs_text' {nm : List Byte} (hn : SymWord nm) (sz : Nat) : ∃ k : Kpstr, k.Ok ∧ k.text = nm ∧
    commArgs (commText' nm sz) = some (k, sz, 0) := by
  refine ⟨_, ?_, ?_, (show commArgs (commText' nm sz) = some (⟨nm ++ (44#8 :: (numeral sz ++ [])), nm.length⟩, sz, 0) from ?_)⟩
  · simp [Kpstr.Ok]
  · simp [Kpstr.text]
  · have e : commText' nm sz = lit "\t.comm\t" ++ nm ++ lit "," ++ numeral sz ++ [] := by unfold commText'; simp
    have g1 := SymWord.getToken (b := []) (r := []) (by intro c hc; cases hc) (numeral_word sz) (Or.inl rfl)
    rw [List.nil_append, show atEnd (skipBlanks []) = true by decide, if_pos rfl] at g1
    rw [e, commArgs_start hn (numeral_word sz), g1]
    simp only [tokNumber_numeral sz _ _ (Or.inl rfl), Option.bind_some]

/-! ### The theorem -/

/-- The data are in the output as zeros: the section for the data of the patch, `.align` with the alignment in decimal unless
it is zero, the name as a label, `.zero` with the size in decimal unless it is zero, and back to the section before. -/
def Zeros (out : List Out) (nm : List Byte) (sz al : Nat) : Prop :=
  ∃ pre page post, out = pre ++ [.section true dataPlace page] ++
    (if al = 0 then [] else [.text (lit "\t.align\t" ++ numeral al ++ lit "\n")]) ++ [.label nm] ++
    (if sz = 0 then [] else [.text (lit "\t.zero\t" ++ numeral sz ++ lit "\n")]) ++ [.pop] ++ post

/-- C97: a variable that the new file declares with `.comm` and the old file does not have is in the output as zeros, with the
size and the alignment of the declaration, in the section for the data of the patch, under its name or under the new name made
from it.  Except on x86 the assembler does not take the number after `.align` for bytes, see `C97_violated_align`. -/
theorem C97_common_partial {o : GenOpts} {i0 i1 : GenInput} {L : GSt} {out : List Out} (h0 : i0.IsText) (h1 : i1.IsText)
    (hL : loadBoth i0 i1 = some L) (hn : L.f0.Named) (h : gensrc o i0 i1 = some out) : ∃ P, Matching L P ∧
      ∀ b1 ∈ L.f1.bs, b1.ty = .var → (∀ b0 ∈ L.f0.bs, P b0.start ≠ some b1.start) →
      ∀ i nm sz al, b1.start ≤ i → i < b1.stop → L.f1.dirAt i = some .comm → SymWord nm → b1.name.text = nm →
        (L.f1.textAt i = commText nm sz al ∨ (L.f1.textAt i = commText' nm sz ∧ al = 0)) →
        Zeros out nm sz al ∨ Zeros out (nm ++ lit ".kpatch") sz al := by
  obtain ⟨a, s, hr⟩ := gensrc_run h0 h1 hL hn h
  refine ⟨a.P0, hr.an.inv.mat, fun b1 hb1 ht hno i nm sz al hi hi' hd hw hname htext => ?_⟩
  have hp : a.P1 b1.start = none := by
    cases hp : a.P1 b1.start with
    | none => rfl
    | some p =>
      obtain ⟨b0, hb0, rfl, hp0⟩ := hr.an.inv.sym b1 hb1 p hp
      exact absurd hp0 (hno b0 hb0)
  obtain ⟨pre, post, code, rfl, hc⟩ := hr.addedData hb1 ht hp
  obtain ⟨k, sz', al', page, pre', post', e1, rfl⟩ := hc.comm i hi hi' hd
  have hargs : ∃ k' : Kpstr, k'.Ok ∧ k'.text = nm ∧ commArgs (L.f1.textAt i) = some (k', sz, al) := by
    rcases htext with e | ⟨e, rfl⟩
    · rw [e]; exact commArgs_text hw sz al
    · rw [e]; exact commArgs_text' hw sz
  obtain ⟨k', hok, hkt, e2⟩ := hargs
  have e1 : commArgs (L.f1.textAt i) = some (k, sz', al') := e1
  rw [e2] at e1
  simp only [Option.some.injEq, Prod.mk.injEq] at e1
  obtain ⟨rfl, rfl, rfl⟩ := e1
  have hnz : ∀ c ∈ nm, c ≠ 0#8 := fun c hc e => hw.2.1 c hc (by subst e; decide)
  have hren : renamed (L.f1.withRen a.r1) k' = nm ∨ renamed (L.f1.withRen a.r1) k' = nm ++ lit ".kpatch" := by
    unfold renamed
    cases hf : renameFind (L.f1.withRen a.r1).ren k' with
    | none => exact Or.inl hkt
    | some d =>
      right
      rcases hr.justified k' d hok hf with e | ⟨c0, hc0, c1, hc1, q1, q2, _⟩
      · show cstr d.dst = _
        rw [e, hkt, cstr, List.append_assoc, List.takeWhile_append_of_pos (by intro c hc; simpa using hnz c hc)]
        congr 1
        decide +kernel
      · rw [hkt] at q2
        have := hr.k1.uniq c1 hc1 b1 hb1 (q2.symm.trans hname.symm) (by rw [← q2]; exact hw.1)
        subst this
        exact absurd q1 (hno c0 hc0)
  have fin : ∀ x, renamed (L.f1.withRen a.r1) k' = x →
      Zeros (pre ++ (pre' ++ zeroData (if true = true then renamed (L.f1.withRen a.r1) k' else k'.text) sz al page ++ post') ++ post) x sz al := by
    rintro x rfl
    refine ⟨pre ++ pre', page, post' ++ post, ?_⟩
    unfold zeroData
    simp only [if_true, List.append_assoc]
    rfl
  rcases hren with e | e
  · exact Or.inl (fin _ e)
  · exact Or.inr (fin _ e)

end Target

/-! ### Concrete cases -/

section X86
attribute [local instance] x86Asm
set_option maxRecDepth 100000

/-- The new `f` uses the new variable `cnt`, a static one of the size 40 aligned to 32. -/
def exComm : GenInput := exIn ["\t.text", "\t.globl\tf", "\t.type\tf, @function", "f:", "\tmovl\tcnt(%rip), %eax", "\tret", "\t.size\tf, .-f",
  "\t.globl\tg", "\t.type\tg, @function", "g:", "\tmovl\tx(%rip), %eax", "\tret", "\t.size\tg, .-g",
  "\t.globl\tx", "\t.data", "\t.type\tx, @object", "\t.size\tx, 4", "x:", "\t.long\t7", "\t.local\tcnt", "\t.comm\tcnt,40,32", "\t.ident\t\"GCC\""]

example : lit "\t.comm\tcnt,40,32" = commText (lit "cnt") 40 32 ∧ SymWord (lit "cnt") ∧ SymWord (lit "foo.0") := by
  unfold SymWord; decide +kernel

/-- The hypotheses of `C97_common_partial` hold, and what it says is so. -/
example : ∃ L out, loadBoth exOld exComm = some L ∧ gensrc exOpts exOld exComm = some out ∧
    (exOld.IsText ∧ exComm.IsText ∧ L.f0.Named) ∧
    (∃ b1 ∈ L.f1.bs, b1.ty = .var ∧ b1.name.text = lit "cnt" ∧ (∀ b0 ∈ L.f0.bs, b0.name.text ≠ lit "cnt") ∧
      ∃ i ∈ b1.range, L.f1.dirAt i = some .comm ∧ L.f1.textAt i = commText (lit "cnt") 40 32) ∧
    ∃ i ∈ List.range out.length, (out.drop i).take 5 =
      [Out.section true dataPlace false, .text (lit "\t.align\t32\n"), .label (lit "cnt.kpatch"), .text (lit "\t.zero\t40\n"), .pop] :=
  ⟨(loadBoth exOld exComm).get (by decide +kernel), (gensrc exOpts exOld exComm).get (by decide +kernel), by simp, by simp,
    by unfold GenInput.IsText GFile.Named; decide +kernel, by decide +kernel, by decide +kernel⟩

/-- A declaration of a variable whose name has a dollar sign ends the generator: such names are left out by `SymWord`. -/
theorem C97_refused_dollar : commArgs (lit "\t.comm\ta$b,4,4") = none := by decide +kernel

end X86

/-- The alignment in bytes that the GNU assembler takes `.align n` for: `n` on x86 with ELF, the power of two on AArch64,
RISC-V and LoongArch. -/
def alignBytes (isa : Isa) (n : Nat) : Nat :=
  match isa with
  | .x86 => n
  | _ => 2 ^ n

section A64
attribute [local instance] a64Asm
set_option maxRecDepth 100000

/-- For AArch64: the function `f`, which in the new file uses the new variable `cnt`, of 40 bytes aligned to 32. -/
def exCommA64 (new : Bool) : GenInput := exIn (["\t.text", "\t.globl\tf", "\t.type\tf, %function", "f:"] ++
  (if new then ["\tadrp\tx0, cnt"] else ["\tmov\tx0, 1"]) ++ ["\tret", "\t.size\tf, .-f"] ++
  (if new then ["\t.local\tcnt", "\t.comm\tcnt,40,32"] else []) ++ ["\t.ident\t\"GCC\""])

/-- C97 is violated except on x86: `.align 32` is written for an alignment to 32 bytes, which asks for four gigabytes. -/
theorem C97_violated_align : ∃ out, gensrc exOpts (exCommA64 false) (exCommA64 true) = some out ∧
    lit "\t.comm\tcnt,40,32" ∈ (exCommA64 true).lines ∧
    (∃ i ∈ List.range out.length, (out.drop i).take 5 =
      [Out.section true dataPlace true, .text (lit "\t.align\t32\n"), .label (lit "cnt.kpatch"), .text (lit "\t.zero\t40\n"), .pop]) ∧
    alignBytes AsmTarget.isa 32 = 4294967296 :=
  ⟨(gensrc exOpts (exCommA64 false) (exCommA64 true)).get (by decide +kernel), by simp, by decide +kernel, by decide +kernel, by decide⟩

end A64
end Verif
