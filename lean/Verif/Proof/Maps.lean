import Verif.Spec.Maps
/-
Scanning the lines of the memory map.
-/
namespace Verif

theorem lowerDigit_hex {d : Nat} {c : Byte} (hd : d < 16) (h : lowerDigits[d]? = some c) :
    isHexDigit c = true ∧ hexDigitVal c = d ∧ (d < 10 → isDigit c = true ∧ c.toNat = 48 + d) := by
  have H : ∀ d : Fin 16, ∃ c, lowerDigits[d.1]? = some c ∧ isHexDigit c = true ∧ hexDigitVal c = d.1 ∧
      (d.1 < 10 → isDigit c = true ∧ c.toNat = 48 + d.1) := by
    intro d
    have : ∀ d : Fin 16, ((lowerDigits[d.1]?).map fun c => isHexDigit c && (hexDigitVal c == d.1) &&
        (!(d.1 < 10) || (isDigit c && c.toNat == 48 + d.1))) = some true := by decide +kernel
    have := this d
    rw [Option.map_eq_some_iff] at this
    obtain ⟨c, hc, h⟩ := this
    simp only [Bool.and_eq_true, beq_iff_eq, Bool.or_eq_true, Bool.not_eq_true', decide_eq_false_iff_not] at h
    refine ⟨c, hc, h.1.1, h.1.2, fun hlt => ?_⟩
    rcases h.2 with h2 | h2
    · exact absurd hlt h2
    · exact h2
  obtain ⟨c', hc', h1⟩ := H ⟨d, hd⟩
  dsimp only at hc' h1
  rw [h] at hc'
  cases hc'
  exact h1

theorem Numeral.hex {s : List Byte} {v : Nat} (h : Numeral 16 s v) :
    s ≠ [] ∧ (∀ c ∈ s, isHexDigit c = true) ∧ hexVal s = v := by
  induction h with
  | digit hd hc =>
    obtain ⟨h1, h2, _⟩ := lowerDigit_hex hd hc
    exact ⟨by simp, by simpa using h1, by simp [hexVal, h2]⟩
  | @snoc s v d c _ hd hc ih =>
    obtain ⟨h1, h2, _⟩ := lowerDigit_hex hd hc
    refine ⟨by simp, ?_, ?_⟩
    · intro x hx
      rcases List.mem_append.1 hx with hx | hx
      · exact ih.2.1 x hx
      · rw [List.mem_singleton.1 hx]; exact h1
    · have := ih.2.2
      unfold hexVal at this ⊢
      rw [List.foldl_append, this]
      simp only [List.foldl_cons, List.foldl_nil, h2]
      omega

theorem Numeral.dec {s : List Byte} {v : Nat} (h : Numeral 10 s v) :
    s ≠ [] ∧ (∀ c ∈ s, isDigit c = true) ∧ digitsVal s = v := by
  induction h with
  | digit hd hc =>
    obtain ⟨_, _, h3⟩ := lowerDigit_hex (by omega) hc
    obtain ⟨h1, h2⟩ := h3 hd
    exact ⟨by simp, by simpa using h1, by simp [digitsVal, h2]⟩
  | @snoc s v d c _ hd hc ih =>
    obtain ⟨_, _, h3⟩ := lowerDigit_hex (by omega) hc
    obtain ⟨h1, h2⟩ := h3 hd
    refine ⟨by simp, ?_, ?_⟩
    · intro x hx
      rcases List.mem_append.1 hx with hx | hx
      · exact ih.2.1 x hx
      · rw [List.mem_singleton.1 hx]; exact h1
    · have := ih.2.2
      unfold digitsVal at this ⊢
      rw [List.foldl_append, this]
      simp only [List.foldl_cons, List.foldl_nil, h2]
      omega

theorem isHexDigit_facts {c : Byte} (h : isHexDigit c = true) :
    isSpace c = false ∧ c ≠ 45#8 ∧ c ≠ 43#8 ∧ c ≠ 120#8 ∧ c ≠ 88#8 ∧ c ≠ 0#8 ∧ c ≠ 10#8 := by
  revert h
  revert c
  decide +kernel

theorem isDigit_hex {c : Byte} (h : isDigit c = true) : isHexDigit c = true := by unfold isHexDigit; rw [h]; rfl

theorem scanSign_none {c : Byte} {s : List Byte} (h1 : c ≠ 45#8) (h2 : c ≠ 43#8) : scanSign (c :: s) = (false, c :: s) := by
  unfold scanSign
  simp [h1, h2]

theorem takeWhile_run {p : Byte → Bool} {s rest : List Byte} (h : ∀ c ∈ s, p c = true) (hr : ∀ c, rest.head? = some c → p c = false) :
    (s ++ rest).takeWhile p = s ∧ (s ++ rest).dropWhile p = rest := by
  rw [List.takeWhile_append_of_pos h, List.dropWhile_append_of_pos h]
  cases rest with
  | nil => simp
  | cons c r => simp [hr c rfl]

theorem dropBlanks (n : Nat) (s : List Byte) (h : ∀ c, s.head? = some c → isSpace c = false) :
    (List.replicate n 32#8 ++ s).dropWhile isSpace = s :=
  (takeWhile_run (p := isSpace) (by intro c hc; rw [(List.mem_replicate.1 hc).2]; decide) h).2

/-- A hexadecimal number after any blanks and before another character. -/
theorem scanHex_ok {n : Nat} {s rest : List Byte} {v : Nat} (h : Numeral 16 s v) {c : Byte} (hc : isHexDigit c = false)
    (hx : c ≠ 120#8 ∧ c ≠ 88#8) :
    scanHex (List.replicate n 32#8 ++ (s ++ c :: rest)) = some (clampULong false v, c :: rest) := by
  obtain ⟨hne, hall, hval⟩ := h.hex
  obtain ⟨d, s', rfl⟩ := List.exists_cons_of_ne_nil hne
  have hd := isHexDigit_facts (hall d (by simp))
  have hrun := takeWhile_run (p := isHexDigit) (s := d :: s') (rest := c :: rest) hall (by simp [hc])
  have h2 : ¬ (((d :: s' ++ c :: rest).take 2 = [48#8, 120#8] ∨ (d :: s' ++ c :: rest).take 2 = [48#8, 88#8]) ∧
      (((d :: s' ++ c :: rest).drop 2).head?.map isHexDigit).getD false = true) := by
    rintro ⟨hh, _⟩
    cases s' with
    | nil => simp at hh; rcases hh with hh | hh <;> simp_all
    | cons e s'' =>
      have he := isHexDigit_facts (hall e (by simp))
      simp at hh
      rcases hh with hh | hh
      · exact he.2.2.2.1 hh.2
      · exact he.2.2.2.2.1 hh.2
  unfold scanHex
  rw [dropBlanks n _ (by simp [hd.1]), List.cons_append, scanSign_none hd.2.1 hd.2.2.1, ← List.cons_append]
  dsimp only
  rw [if_neg h2, hrun.1, hrun.2, if_neg (by simp), hval]

theorem scanDec_ok {n : Nat} {s rest : List Byte} {v : Nat} (h : Numeral 10 s v) {c : Byte} (hc : isDigit c = false) :
    scanDec (List.replicate n 32#8 ++ (s ++ c :: rest)) = some (min v (2 ^ 63 - 1) % 2 ^ 32, c :: rest) := by
  obtain ⟨hne, hall, hval⟩ := h.dec
  obtain ⟨d, s', rfl⟩ := List.exists_cons_of_ne_nil hne
  have hd := isHexDigit_facts (isDigit_hex (hall d (by simp)))
  have hrun := takeWhile_run (p := isDigit) (s := d :: s') (rest := c :: rest) hall (by simp [hc])
  unfold scanDec
  rw [dropBlanks n _ (by simp [hd.1]), List.cons_append, scanSign_none hd.2.1 hd.2.2.1, ← List.cons_append]
  dsimp only
  rw [hrun.1, hrun.2, if_neg (by simp), hval]
  rfl

theorem scanWord_ok {n k : Nat} {w rest : List Byte} (hne : w ≠ []) (hw : ∀ c ∈ w, isSpace c = false) (hk : w.length ≤ k)
    (hr : ∀ c, rest.head? = some c → isSpace c = true) :
    scanWord k (List.replicate n 32#8 ++ (w ++ rest)) = some (w, rest) := by
  obtain ⟨d, w', rfl⟩ := List.exists_cons_of_ne_nil hne
  have hrun := takeWhile_run (p := fun c => !isSpace c) (s := d :: w') (rest := rest) (by
    intro c hc; simp [hw c hc]) (by intro c hc; simp [hr c hc])
  unfold scanWord
  rw [dropBlanks n _ (by simp [hw d (by simp)])]
  dsimp only
  rw [hrun.1, List.take_of_length_le hk, if_neg (by simp), List.drop_left]

/-- `fgets` on a line that fits. -/
theorem mapsFgets_ok {line text : List Byte} (hn : 10#8 ∉ line) (hl : line.length ≤ 1022) :
    mapsFgets (line ++ 10#8 :: text) = (line ++ [10#8], text) := by
  have hc : (line ++ 10#8 :: text).take 1023 = line ++ 10#8 :: text.take (1022 - line.length) := by
    rw [List.take_append, List.take_of_length_le (by omega), show 1023 - line.length = (1022 - line.length) + 1 by omega,
      List.take_succ_cons]
  have hrun := takeWhile_run (p := fun c => decide (c ≠ 10#8)) (s := line) (rest := 10#8 :: text.take (1022 - line.length))
    (by intro c hc; simp; rintro rfl; exact hn hc) (by simp)
  unfold mapsFgets
  dsimp only
  rw [hc, if_pos (by simp), hrun.1, List.drop_append]
  simp

theorem lastComponent_baseName {p : List Byte} (h : 47#8 ∈ p) : LastComponent p (baseName p) := by
  have hsplit := List.takeWhile_append_dropWhile (p := fun c : Byte => decide (c ≠ 47#8)) (l := p.reverse)
  refine ⟨?_, ?_⟩
  · intro hm
    unfold baseName at hm
    rw [List.mem_reverse] at hm
    have := List.all_takeWhile (p := fun c : Byte => decide (c ≠ 47#8)) (l := p.reverse)
    rw [List.all_eq_true] at this
    exact absurd (this _ hm) (by simp)
  · cases hd : p.reverse.dropWhile (fun c : Byte => decide (c ≠ 47#8)) with
    | nil =>
      rw [hd, List.append_nil] at hsplit
      have := List.all_takeWhile (p := fun c : Byte => decide (c ≠ 47#8)) (l := p.reverse)
      rw [hsplit, List.all_eq_true] at this
      exact absurd (this _ (List.mem_reverse.2 h)) (by simp)
    | cons c r =>
      have hc : c = 47#8 := by
        have := List.head?_dropWhile_not (fun c : Byte => decide (c ≠ 47#8)) p.reverse
        rw [hd] at this
        simpa using this
      subst hc
      refine ⟨r.reverse, ?_⟩
      have := congrArg List.reverse hsplit
      rw [hd, List.reverse_append, List.reverse_cons, List.reverse_reverse] at this
      exact this.symm.trans (by simp [baseName])

theorem perms_facts (v : KVma) : v.perms ≠ [] ∧ (∀ c ∈ v.perms, isSpace c = false ∧ c ≠ 0#8) ∧ v.perms.length = 4 ∧
    perms2prot v.perms = (if v.readable then 1 else 0) + (if v.writable then 2 else 0) + (if v.executable then 4 else 0) := by
  have H : ∀ r w x s : Bool,
      let p : List Byte := [if r then 114#8 else 45#8, if w then 119#8 else 45#8, if x then 120#8 else 45#8,
        if s then 115#8 else 112#8]
      p ≠ [] ∧ (∀ c ∈ p, isSpace c = false ∧ c ≠ 0#8) ∧ p.length = 4 ∧
        perms2prot p = (if r then 1 else 0) + (if w then 2 else 0) + (if x then 4 else 0) := by decide
  exact H v.readable v.writable v.executable v.shared

theorem makedev_inj {a b c d : Nat} (ha : a < 2 ^ 32) (hb : b < 2 ^ 32) (hc : c < 2 ^ 32) (hd : d < 2 ^ 32)
    (h : makedev a b = makedev c d) : a = c ∧ b = d := by
  unfold makedev at h
  omega

theorem makedev_zero {a b : Nat} (h : makedev a b = 0) : a = 0 ∧ b = 0 := by
  unfold makedev at h
  omega

/-- The characters of a line. -/
theorem KVma.Line.chars {v : KVma} {line : List Byte} (h : v.Line line) (hn : ∀ c ∈ v.name, isSpace c = false ∧ c ≠ 0#8) :
    (∀ c ∈ line, c ≠ 0#8 ∧ c ≠ 10#8) ∧ ∃ c r, line = c :: r ∧ isSpace c = false := by
  obtain ⟨a, b, o, mj, mn, ino, k, ha, hb, ho, hmj, hmn, hino, rfl⟩ := h
  have num : ∀ {s w}, Numeral 16 s w → ∀ c ∈ s, c ≠ 0#8 ∧ c ≠ 10#8 := fun h c hc =>
    let f := isHexDigit_facts (h.hex.2.1 c hc); ⟨f.2.2.2.2.2.1, f.2.2.2.2.2.2⟩
  have ns : ∀ {c : Byte}, isSpace c = false → c ≠ 10#8 := by
    rintro c hc rfl; simp [isSpace] at hc
  constructor
  · intro c hc
    simp only [List.mem_append, List.mem_cons, List.mem_replicate, or_assoc] at hc
    rcases hc with hc | hc | hc | hc | hc | hc | hc | hc | hc | hc | hc | hc | hc | hc | hc | hc
    · exact num ha c hc
    · subst hc; decide
    · exact num hb c hc
    · subst hc; decide
    · have := (perms_facts v).2.1 c hc
      exact ⟨this.2, ns this.1⟩
    · subst hc; decide
    · exact num ho c hc
    · subst hc; decide
    · exact num hmj c hc
    · subst hc; decide
    · exact num hmn c hc
    · subst hc; decide
    · have f := isHexDigit_facts (isDigit_hex (hino.dec.2.1 c hc))
      exact ⟨f.2.2.2.2.2.1, f.2.2.2.2.2.2⟩
    · subst hc; decide
    · rw [hc.2]; decide
    · exact ⟨(hn c hc).2, ns (hn c hc).1⟩
  · obtain ⟨hne, hall, _⟩ := ha.hex
    obtain ⟨d, s, rfl⟩ := List.exists_cons_of_ne_nil hne
    exact ⟨d, _, by simp only [List.cons_append]; rfl, (isHexDigit_facts (hall d (by simp))).1⟩

/-- What is recorded of a line. -/
def KVma.mapping (v : KVma) : Mapping :=
  ⟨v.start, v.stop, perms2prot v.perms, makedev v.maj v.min, v.inode,
    nameString (if v.name = [] then lit "[anonymous]" else if v.name.head? = some 47#8 then baseName v.name else v.name)⟩

theorem mapsLine_ok {v : KVma} {line : List Byte} (h : v.Line line) (hr : v.InRange) (hn : v.PlainName) :
    mapsLine (line ++ [10#8]) = .ok v.mapping := by
  obtain ⟨hch, c0, r0, hl0, hc0⟩ := h.chars hn.1
  have hcs : cstr (line ++ [10#8]) = line ++ [10#8] := by
    have := (takeWhile_run (p := fun c : Byte => c != 0) (s := line ++ [10#8]) (rest := []) ?_ (by simp)).1
    · rwa [List.append_nil] at this
    intro c hc
    rcases List.mem_append.1 hc with hc | hc
    · simpa using (hch c hc).1
    · rw [List.mem_singleton.1 hc]; decide
  have hnb : (line ++ [10#8]).dropWhile isSpace ≠ [] := by
    rw [hl0, List.cons_append, List.dropWhile_cons, hc0]; simp
  obtain ⟨a, b, o, mj, mn, ino, k, ha, hb, ho, hmj, hmn, hino, hline⟩ := h
  have hp := perms_facts v
  have e0 : line ++ [10#8] = List.replicate 0 32#8 ++ (a ++ 45#8 :: (List.replicate 0 32#8 ++ (b ++ 32#8 :: (v.perms ++ 32#8 ::
      (o ++ 32#8 :: (mj ++ 58#8 :: (List.replicate 0 32#8 ++ (mn ++ 32#8 :: (ino ++ 32#8 :: (List.replicate k 32#8 ++
        (v.name ++ [10#8]))))))))))) := by
    rw [hline]; simp [List.append_assoc]
  have one : ∀ s : List Byte, 32#8 :: s = List.replicate 1 32#8 ++ s := fun s => rfl
  unfold mapsLine
  dsimp only
  rw [hcs, if_neg hnb, e0]
  rw [scanHex_ok ha (by decide) (by decide)]
  simp only [Option.bind_eq_bind, Option.bind_some, scanChar, List.head?_cons, if_pos, List.drop_succ_cons, List.drop_zero]
  rw [scanHex_ok hb (by decide) (by decide)]
  simp only [Option.bind_some]
  rw [one (v.perms ++ _), scanWord_ok (n := 1) hp.1 (fun c hc => (hp.2.1 c hc).1) (by simp; omega) (by simp; decide)]
  simp only [Option.bind_some]
  rw [one (o ++ _), scanHex_ok (n := 1) ho (by decide) (by decide)]
  simp only [Option.bind_some]
  rw [one (mj ++ _), scanHex_ok (n := 1) hmj (by decide) (by decide)]
  simp only [Option.bind_some, List.head?_cons, if_pos, List.drop_succ_cons, List.drop_zero]
  rw [scanHex_ok hmn (by decide) (by decide)]
  simp only [Option.bind_some]
  rw [one (ino ++ _), scanDec_ok (n := 1) hino (by decide)]
  simp only [Option.bind_some, Option.pure_def]
  rw [if_neg (by omega)]
  have cl : ∀ x, x < 2 ^ 64 → clampULong false x = x := by
    intro x hx; unfold clampULong; rw [if_neg (by omega)]; simp
  have hmaj := hr.maj
  have hmin := hr.min
  have hi := hr.inode
  rw [cl _ hr.start, cl _ hr.stop, cl _ (by omega), cl _ (by omega), Nat.mod_eq_of_lt hmaj, Nat.mod_eq_of_lt hmin,
    Nat.min_eq_left (by omega), Nat.mod_eq_of_lt hi]
  unfold KVma.mapping
  congr 2
  by_cases hnm : v.name = []
  · have : scanWord 255 (32#8 :: (List.replicate k 32#8 ++ (v.name ++ [10#8]))) = none := by
      unfold scanWord
      have hd : (32#8 :: (List.replicate k 32#8 ++ (v.name ++ [10#8]))).dropWhile isSpace = [] := by
        have := (takeWhile_run (p := isSpace) (s := 32#8 :: (List.replicate k 32#8 ++ (v.name ++ [10#8]))) (rest := []) ?_
          (by simp)).2
        · rwa [List.append_nil] at this
        intro c hc
        simp only [hnm, List.mem_cons, List.mem_append, List.mem_replicate, List.not_mem_nil, or_false, List.nil_append] at hc
        rcases hc with rfl | ⟨_, rfl⟩ | rfl <;> decide
      rw [hd]
      rfl
    rw [this, if_pos hnm]
    decide +kernel
  · have e : 32#8 :: (List.replicate k 32#8 ++ (v.name ++ [10#8])) = List.replicate (k + 1) 32#8 ++ (v.name ++ [10#8]) := by
      rw [List.replicate_succ, List.cons_append]
    rw [e, scanWord_ok hnm (fun c hc => (hn.1 c hc).1) hn.2 (by simp; decide),
      if_neg hnm]
    rfl

end Verif
