import Verif.Spec.BuildId
import Verif.Proof.Bytes
import Verif.Proof.Mem
/-
Lemmas for the search of build ids.
-/
namespace Verif

theorem padded_length (bs : List Byte) : (padded bs).length = bs.length + (4 - bs.length % 4) % 4 := by
  simp [padded]

theorem padded_unpadded {bs : List Byte} (h : bs.length % 4 = 0) : padded bs = bs := by
  simp [padded, h]

theorem Holds.take_eq {m : Mem} {a : Nat} {xs ys : List Byte} (hx : Holds m a xs) (hy : Holds m a ys)
    (k : Nat) (h1 : k ≤ xs.length) (h2 : k ≤ ys.length) : xs.take k = ys.take k := by
  apply List.ext_getElem
  · simp; omega
  · intro i hi hj
    simp only [List.length_take] at hi hj
    simp only [List.getElem_take]
    have e1 := hx i (by omega)
    have e2 := hy i (by omega)
    rw [e1] at e2
    exact Option.some.inj e2

theorem Holds.left {m : Mem} {a : Nat} {xs ys : List Byte} (h : Holds m a (xs ++ ys)) : Holds m a xs := by
  intro k hk
  have := h k (by simp; omega)
  rw [this, List.getElem_append_left hk]

theorem Holds.right {m : Mem} {a : Nat} {xs ys : List Byte} (h : Holds m a (xs ++ ys)) :
    Holds m (a + xs.length) ys := by
  intro k hk
  have := h (xs.length + k) (by simp; omega)
  rw [Nat.add_assoc, this, List.getElem_append_right (by omega)]
  congr 2
  omega

theorem encoded_length (n : Note) :
    n.encoded.length = 12 + (padded n.name).length + (padded n.desc).length := by
  simp [Note.encoded, leBytes_length]
  omega

theorem encoded_split (n : Note) : ∃ a b c, n.encoded = a ++ (b ++ (c ++ (padded n.name ++ padded n.desc))) ∧
    a = leBytes 4 n.name.length ∧ b = leBytes 4 n.desc.length ∧ c = leBytes 4 n.typ ∧
    a.length = 4 ∧ b.length = 4 ∧ c.length = 4 := by
  refine ⟨_, _, _, ?_, rfl, rfl, rfl, leBytes_length _ _, leBytes_length _ _, leBytes_length _ _⟩
  simp [Note.encoded]

/-- The header of a note that begins the buffer. -/
theorem note_header {n : Note} {buf : List Byte} (hf : n.Fits) (h : buf.take 12 = n.encoded.take 12) :
    noteNamesz buf = n.name.length ∧ noteDescsz buf = n.desc.length ∧ noteType buf = n.typ := by
  obtain ⟨a, b, c, he, ha, hb, hc, la, lb, lc⟩ := encoded_split n
  have h12 : buf.take 12 = a ++ (b ++ c) := by
    rw [h, he, ← List.append_assoc, ← List.append_assoc, ← List.append_assoc]
    rw [List.append_assoc ((a ++ b) ++ c), List.take_append_of_le_length (by simp; omega),
      List.take_of_length_le (by simp; omega), List.append_assoc]
  have e1 : buf.take 4 = a := by
    have : buf.take 4 = (buf.take 12).take 4 := by rw [List.take_take]; rfl
    rw [this, h12, List.take_append_of_le_length (by omega), List.take_of_length_le (by omega)]
  have e2 : (buf.drop 4).take 4 = b := by
    have : (buf.drop 4).take 4 = ((buf.take 12).drop 4).take 4 := by
      rw [List.drop_take, List.take_take]; rfl
    rw [this, h12, List.drop_append_of_le_length (by omega), List.drop_of_length_le (by omega),
      List.nil_append, List.take_append_of_le_length (by omega), List.take_of_length_le (by omega)]
  have e3 : (buf.drop 8).take 4 = c := by
    have : (buf.drop 8).take 4 = ((buf.take 12).drop 8).take 4 := by
      rw [List.drop_take, List.take_take]; rfl
    rw [this, h12, ← List.append_assoc, List.drop_append_of_le_length (by simp; omega),
      List.drop_of_length_le (by simp; omega), List.nil_append, List.take_of_length_le (by omega)]
  unfold noteNamesz noteDescsz noteType
  rw [e1, e2, e3, ha, hb, hc, leVal_leBytes, leVal_leBytes, leVal_leBytes]
  obtain ⟨f1, f2, f3⟩ := hf
  exact ⟨Nat.mod_eq_of_lt (by omega), Nat.mod_eq_of_lt (by omega), Nat.mod_eq_of_lt (by omega)⟩

theorem lit_GNU : lit "GNU" = [0x47#8, 0x4e#8, 0x55#8] := by decide +kernel

/-- Four bytes read as a C string. -/
theorem takeWhile_GNU {xs : List Byte} {a b c d : Byte} :
    (a :: b :: c :: d :: xs).takeWhile (· != 0) = lit "GNU" ↔ [a, b, c, d] = lit "GNU" ++ [0] := by
  rw [lit_GNU]
  simp only [List.takeWhile_cons]
  constructor
  · intro h
    split at h
    · split at h
      · split at h
        · split at h
          · simp at h
          · rename_i hd
            simp_all
        · simp at h
      · simp at h
    · simp at h
  · intro h
    simp at h
    obtain ⟨h1, h2, h3, h4⟩ := h
    subst h1 h2 h3 h4
    simp

theorem note_name {n : Note} {buf : List Byte} (h4 : n.name.length = 4)
    (h : buf.take 16 = n.encoded.take 16) : ∃ rest, buf.drop 12 = n.name ++ rest := by
  obtain ⟨a, b, c, he, -, -, -, la, lb, lc⟩ := encoded_split n
  rw [padded_unpadded (by omega)] at he
  have e : (buf.drop 12).take 4 = n.name := by
    have : (buf.drop 12).take 4 = (buf.take 16).drop 12 := by rw [List.drop_take]
    rw [this, h, he]
    have : a ++ (b ++ (c ++ (n.name ++ padded n.desc))) = (a ++ b ++ c ++ n.name) ++ padded n.desc := by simp
    rw [this, List.take_append_of_le_length (by simp; omega), List.take_of_length_le (by simp; omega)]
    rw [List.drop_append_of_le_length (by simp; omega), List.drop_of_length_le (by simp; omega), List.nil_append]
  refine ⟨(buf.drop 12).drop 4, ?_⟩
  rw [← e, List.take_append_drop]

/-- The test of the code is the test of the specification. -/
theorem note_isBuildid {n : Note} {m : Mem} {a : Nat} {buf : List Byte} (hf : n.Fits)
    (hl : buf.length = noteBuf) (hb : Holds m a buf) (he : Holds m a n.encoded) :
    noteIsBuildid buf = decide n.IsBuildId := by
  have hL := encoded_length n
  have h12 := hb.take_eq he 12 (by rw [hl, noteBuf]; omega) (by omega)
  obtain ⟨e1, e2, e3⟩ := note_header hf h12
  unfold noteIsBuildid
  rw [e1, e3]
  by_cases h4 : n.name.length = 4
  · have hp := padded_length n.name
    have h16 := hb.take_eq he 16 (by rw [hl, noteBuf]; omega) (by omega)
    obtain ⟨rest, hr⟩ := note_name h4 h16
    rw [hr, Bool.eq_iff_iff, decide_eq_true_eq, h4]
    simp only [Bool.and_eq_true, beq_iff_eq, true_and]
    have key : (n.name ++ rest).takeWhile (· != 0) = lit "GNU" ↔ n.name = lit "GNU" ++ [0] := by
      match n.name, h4 with
      | [w, x, y, z], _ => exact takeWhile_GNU
    rw [key]
    exact Iff.rfl
  · rw [beq_eq_false_iff_ne.mpr h4]
    simp only [Bool.false_and]
    symm
    rw [decide_eq_false_iff_not]
    rintro ⟨h, -⟩
    apply h4
    rw [h, lit_GNU]
    rfl

theorem note_desc {n : Note} {m : Mem} {a : Nat} {buf : List Byte} (hf : n.Fits) (hi : n.IsBuildId)
    (h20 : n.desc.length = 20) (hl : buf.length = noteBuf) (hb : Holds m a buf) (he : Holds m a n.encoded) :
    ((buf.drop 12).drop (noteNamesz buf)).take 20 = n.desc := by
  have h4 : n.name.length = 4 := by rw [hi.1, lit_GNU]; rfl
  have hL := encoded_length n
  have hp := padded_length n.name
  have hq := padded_length n.desc
  have h12 := hb.take_eq he 12 (by rw [hl, noteBuf]; omega) (by omega)
  have h36 := hb.take_eq he 36 (by rw [hl, noteBuf]; omega) (by omega)
  obtain ⟨e1, -, -⟩ := note_header hf h12
  rw [e1, h4, List.drop_drop]
  have : (buf.drop (12 + 4)).take 20 = (buf.take 36).drop 16 := by rw [List.drop_take]
  rw [this, h36]
  obtain ⟨a, b, c, he, -, -, -, la, lb, lc⟩ := encoded_split n
  rw [padded_unpadded (by omega), padded_unpadded (by omega)] at he
  rw [List.take_of_length_le (by omega), he]
  have : a ++ (b ++ (c ++ (n.name ++ n.desc))) = (a ++ b ++ c ++ n.name) ++ n.desc := by simp
  rw [this, List.drop_append_of_le_length (by simp; omega), List.drop_of_length_le (by simp; omega),
    List.nil_append]

theorem noteSearch_spec {lim : Nat} {m : Mem} {vma : Nat} (hlim : noteBuf ≤ lim) :
    ∀ (ns : List Note) (off last : Nat), last = off + (notesEncoded ns).length →
      (notesEncoded ns).length ≤ noteBuf →
      Holds m (vma + off) (notesEncoded ns) → Mapped m (vma + off) ((notesEncoded ns).length + noteBuf) →
      (∀ n ∈ ns, n.Fits) → (∀ n ∈ ns, n.Unpadded ∨ n.IsBuildId) →
      (∀ n ∈ ns, n.IsBuildId → n.desc.length = 20) →
      ∃ r, noteSearch lim m vma last off = some r ∧
        (ns.find? (fun n => decide n.IsBuildId) = none → r = none) ∧
        (∀ n, ns.find? (fun n => decide n.IsBuildId) = some n → ∃ buf, r = some buf ∧
          ((buf.drop 12).drop (noteNamesz buf)).take 20 = n.desc) := by
  intro ns
  induction ns with
  | nil =>
    intro off last hlast _ _ _ _ _ _
    refine ⟨none, ?_, fun _ => rfl, fun n h => by simp at h⟩
    rw [noteSearch, if_neg (by simp [notesEncoded] at hlast; omega)]
  | cons n ns ih =>
    intro off last hlast hle hh hm hf hu h20
    have hL := encoded_length n
    have e : notesEncoded (n :: ns) = n.encoded ++ notesEncoded ns := by simp [notesEncoded]
    rw [e] at hh hm hlast hle
    rw [List.length_append] at hm hlast hle
    have hn := hf n (by simp)
    obtain ⟨buf, hr, hl, hb⟩ := memRead_full (lim := lim) (m := m) (a := vma + off) (n := noteBuf) hlim
      (fun k hk => hm k (by omega))
    rw [noteSearch, if_pos (by omega), hr]
    simp only [note_isBuildid hn hl hb hh.left, decide_eq_true_eq]
    by_cases hi : n.IsBuildId
    · rw [if_pos hi]
      refine ⟨_, rfl, fun h => by simp [hi] at h, fun n' h => ⟨buf, rfl, ?_⟩⟩
      rw [List.find?_cons_of_pos (by simpa using hi)] at h
      injection h with h
      subst h
      exact note_desc hn hi (h20 n (by simp) hi) hl hb hh.left
    · rw [if_neg hi]
      have hun := (hu n (by simp)).resolve_right hi
      have h12 := hb.take_eq hh.left 12 (by rw [hl, noteBuf]; omega) (by omega)
      obtain ⟨e1, e2, -⟩ := note_header hn h12
      have hs : noteStep buf = n.encoded.length := by
        rw [hL, padded_unpadded hun.1, padded_unpadded hun.2]
        rw [padded_unpadded hun.1, padded_unpadded hun.2] at hL
        unfold noteStep
        rw [e1, e2, Nat.mod_eq_of_lt (by simp only [noteBuf] at hle; omega)]
        omega
      rw [hs, List.find?_cons_of_neg (by simpa using hi)]
      refine ih (off + n.encoded.length) last (by omega) (by omega) ?_ ?_ (fun x hx => hf x (by simp [hx]))
        (fun x hx => hu x (by simp [hx])) (fun x hx => h20 x (by simp [hx]))
      · rw [← Nat.add_assoc]
        exact hh.right
      · intro k hk
        have := hm (n.encoded.length + k) (by omega)
        rwa [← Nat.add_assoc, Nat.add_assoc vma] at this

theorem noteSearch_found (lim : Nat) (m : Mem) (vma last off : Nat) (buf : List Byte)
    (h : noteSearch lim m vma last off = some (some buf)) :
    ∃ o, off ≤ o ∧ o < last ∧ memRead lim m (vma + o) noteBuf = some buf ∧ noteIsBuildid buf = true := by
  fun_induction noteSearch lim m vma last off with
  | case1 => simp at h
  | case2 off hlt b hr hi =>
    simp only [Option.some.injEq] at h
    subst h
    exact ⟨off, by omega, hlt, hr, hi⟩
  | case3 off hlt b hr hi ih =>
    obtain ⟨o, h1, h2, h3⟩ := ih h
    exact ⟨o, by simp only [noteStep] at h1; omega, h2, h3⟩
  | case4 => simp at h

theorem leBytes_of_leVal : ∀ (bs : List Byte), leBytes bs.length (leVal bs) = bs := by
  intro bs
  induction bs with
  | nil => rfl
  | cons b bs ih =>
    have hb := b.isLt
    simp only [List.length_cons, leBytes, leVal]
    rw [show (b.toNat + 256 * leVal bs) / 256 = leVal bs by omega, ih]
    congr 1
    apply BitVec.eq_of_toNat_eq
    simp only [BitVec.toNat_ofNat]
    omega

theorem buildid_bytes {buf : List Byte} (hl : buf.length = noteBuf) (h : noteIsBuildid buf = true) :
    ∃ dsz id tl, dsz.length = 4 ∧ id.length = 20 ∧
      buf = (leBytes 4 4 ++ dsz ++ leBytes 4 3 ++ lit "GNU" ++ [0] ++ id) ++ tl ∧
      ((buf.drop 12).drop (noteNamesz buf)).take 20 = id := by
  simp only [noteIsBuildid, Bool.and_eq_true, beq_iff_eq] at h
  obtain ⟨⟨h1, h2⟩, h3⟩ := h
  simp only [noteBuf] at hl
  have e1 : buf.take 4 = leBytes 4 4 := by
    rw [← leBytes_of_leVal (buf.take 4), show (buf.take 4).length = 4 by simp; omega]
    rw [show leVal (buf.take 4) = 4 from h1]
  have e3 : (buf.drop 8).take 4 = leBytes 4 3 := by
    rw [← leBytes_of_leVal ((buf.drop 8).take 4), show ((buf.drop 8).take 4).length = 4 by simp; omega]
    rw [show leVal ((buf.drop 8).take 4) = 3 from h3]
  have e4 : (buf.drop 12).take 4 = lit "GNU" ++ [0] := by
    have hlen : 4 ≤ (buf.drop 12).length := by simp; omega
    revert h2 hlen
    generalize buf.drop 12 = xs
    intro h2 hlen
    match xs, hlen with
    | a :: b :: c :: d :: xs, _ => exact takeWhile_GNU.mp h2
  refine ⟨(buf.drop 4).take 4, (buf.drop 16).take 20, buf.drop 36, by simp; omega, by simp; omega, ?_, ?_⟩
  · rw [List.append_assoc (_ ++ _) (lit "GNU") [0], ← e4, ← e1, ← e3]
    have d1 : ∀ (k i j : Nat), i + k = j → (buf.drop i).take k ++ buf.drop j = buf.drop i := by
      intro k i j hij
      rw [← hij, ← List.drop_drop, List.take_append_drop]
    simp only [List.append_assoc]
    rw [d1 20 16 36 rfl, d1 4 12 16 rfl, d1 4 8 12 rfl, d1 4 4 8 rfl, List.take_append_drop]
  · rw [h1, List.drop_drop]

theorem hexDigit_eq : ∀ n, n < 16 → some (hexDigit n) = hexAlphabet[n]? := by
  have : ∀ n : Fin 16, some (hexDigit n.val) = hexAlphabet[n.val]? := by decide +kernel
  intro n hn
  exact this ⟨n, hn⟩

theorem hexBytes_isHex (bs : List Byte) : IsHexOf (hexBytes bs) bs := by
  induction bs with
  | nil => exact ⟨rfl, fun k h => by simp at h⟩
  | cons b bs ih =>
    refine ⟨by simp [hexBytes, ih.1]; omega, ?_⟩
    intro k hk
    cases k with
    | zero =>
      have := b.isLt
      simp only [hexBytes, Nat.mul_zero, List.getElem?_cons_zero, Nat.zero_add, List.getElem?_cons_succ,
        List.getElem_cons_zero]
      exact ⟨hexDigit_eq _ (by omega), hexDigit_eq _ (by omega)⟩
    | succ k =>
      have := ih.2 k (by simpa using hk)
      rw [show 2 * (k + 1) = 2 * k + 1 + 1 by omega]
      simpa only [hexBytes, List.getElem?_cons_succ, List.getElem_cons_succ] using this

end Verif
