import Verif.Model.PatchElf
import Verif.Proof.Bytes
import Verif.Proof.Reloc
/-
The patch's ELF object as bytes (C79): reading fields, and the three passes over the image.
-/
namespace Verif
open Cpu

theorem ldField_eq (img : List Byte) (off n : Nat) : ldField img off n = leVal (bytesAt img off n) := rfl

theorem ldField_congr (a b : List Byte) (off n : Nat) (h : ∀ k, off ≤ k → k < off + n → a[k]? = b[k]?) :
    ldField a off n = ldField b off n := by
  rw [ldField_eq, ldField_eq, bytesAt_congr a b off n h]

theorem ldField_lt (img : List Byte) (off n : Nat) : ldField img off n < 256 ^ n := by
  unfold ldField
  refine Nat.lt_of_lt_of_le (leVal_lt _) (Nat.pow_le_pow_right (by omega) ?_)
  simp only [List.length_take]; omega

theorem ldField_poke (img : List Byte) (off n v : Nat) (h : off + n ≤ img.length) :
    ldField (pokeAt img off (leBytes n v)) off n = v % 256 ^ n := by
  have hl := leBytes_length n v
  have := bytesAt_pokeAt img off (leBytes n v) (by omega)
  rw [hl] at this
  rw [ldField_eq, this, leVal_leBytes]

theorem ldField_poke_bv (img : List Byte) (off : Nat) (v : BitVec 64) (h : off + 8 ≤ img.length) :
    ldField (pokeAt img off (leBytes 8 v.toNat)) off 8 = v.toNat := by
  rw [ldField_poke img off 8 _ h]
  exact Nat.mod_eq_of_lt v.isLt

/-- Bytes that end a name: NUL and `@`. -/
def isStop (b : Byte) : Bool := b == 0#8 || b == 0x40#8

theorem uname_eq : ∀ (l : List Byte), unversioned (cstr l) = l.takeWhile fun b => !isStop b
  | [] => rfl
  | b :: bs => by
    have ih := uname_eq bs
    unfold unversioned cstr at ih ⊢
    unfold isStop at ih ⊢
    simp only [List.takeWhile_cons]
    by_cases h1 : b = 0#8
    · simp [h1]
    · by_cases h2 : b = 0x40#8
      · simp [h2]
      · have h1' : (b != 0) = true := by simpa [bne] using h1
        simp only [h1', if_true, List.takeWhile_cons]
        simp [h1, h2]
        simpa using ih

theorem takeWhile_stop_congr : ∀ (a b : List Byte) (n : Nat), a[n]? = some 0#8 →
    (∀ k : Nat, k ≤ n → a[k]? = b[k]? ∨ (∃ x y, a[k]? = some x ∧ b[k]? = some y ∧ isStop x = true ∧ isStop y = true)) →
    (a.takeWhile fun b => !isStop b) = b.takeWhile fun b => !isStop b
  | [], b, n, h0, h => by simp at h0
  | x :: xs, b, n, hn, h => by
    have h0 := h 0 (by omega)
    cases b with
    | nil => simp at h0
    | cons y ys =>
      simp only [List.getElem?_cons_zero, Option.some.injEq] at h0
      rcases h0 with rfl | ⟨_, _, rfl, rfl, hx, hy⟩
      · cases n with
        | zero => simp at hn; subst hn; simp [isStop]
        | succ n =>
          have ht := takeWhile_stop_congr xs ys n (by simpa using hn) (fun k hk => by simpa using h (k + 1) (by omega))
          simp only [List.takeWhile_cons, ht]
      · simp [hx, hy]

/-- The name at `off`, without version, only depends on the bytes up to equality of end bytes. -/
theorem uname_congr (a b : List Byte) (off e : Nat) (hoe : off ≤ e) (h0 : a[e]? = some 0#8)
    (h : ∀ k, off ≤ k → k ≤ e → a[k]? = b[k]? ∨
      (∃ x y, a[k]? = some x ∧ b[k]? = some y ∧ isStop x = true ∧ isStop y = true)) :
    unversioned (cstr (a.drop off)) = unversioned (cstr (b.drop off)) := by
  rw [uname_eq, uname_eq]
  apply takeWhile_stop_congr _ _ (e - off)
  · rw [List.getElem?_drop, show off + (e - off) = e by omega]; exact h0
  · intro k hk
    rw [List.getElem?_drop, List.getElem?_drop]
    exact h _ (by omega) (by omega)

/-- A string is determined by the bytes up to its terminating 0. -/
theorem cstr_congr : ∀ (a b : List Byte) (n : Nat), a[n]? = some 0#8 → (∀ k, k ≤ n → a[k]? = b[k]?) → cstr a = cstr b
  | [], _, n, h, _ => by simp at h
  | x :: xs, b, n, h, heq => by
    have h0 := heq 0 (by omega)
    cases b with
    | nil => simp at h0
    | cons y ys =>
      simp only [List.getElem?_cons_zero, Option.some.injEq] at h0
      subst h0
      unfold cstr
      simp only [List.takeWhile_cons]
      split
      · cases n with
        | zero => simp at h; subst h; contradiction
        | succ n =>
          congr 1
          exact cstr_congr xs ys n (by simpa using h) (fun k hk => by simpa using heq (k + 1) (by omega))
      · rfl

theorem cstr_drop_congr (a b : List Byte) (off e : Nat) (hoe : off ≤ e) (h0 : a[e]? = some 0#8)
    (h : ∀ k, off ≤ k → k ≤ e → a[k]? = b[k]?) : cstr (a.drop off) = cstr (b.drop off) := by
  apply cstr_congr _ _ (e - off)
  · rw [List.getElem?_drop, show off + (e - off) = e by omega]; exact h0
  · intro k hk
    rw [List.getElem?_drop, List.getElem?_drop]
    exact h _ (by omega) (by omega)

/-- The string ends before a 0 byte. -/
theorem cstr_length_le : ∀ (a : List Byte) (n : Nat), a[n]? = some 0#8 → (cstr a).length ≤ n
  | [], n, h => by simp at h
  | x :: xs, n, h => by
    unfold cstr
    simp only [List.takeWhile_cons]
    split
    · cases n with
      | zero => simp at h; subst h; contradiction
      | succ n =>
        have := cstr_length_le xs n (by simpa using h)
        unfold cstr at this
        simp only [List.length_cons]; omega
    · simp

theorem takeWhile_next {α : Type} (p : α → Bool) : ∀ (l : List α), (∃ x ∈ l, p x = false) →
    ∃ x, l[(l.takeWhile p).length]? = some x ∧ p x = false
  | [], h => by obtain ⟨x, hx, _⟩ := h; simp at hx
  | y :: ys, h => by
    rw [List.takeWhile_cons]
    cases hp : p y with
    | true =>
      obtain ⟨x, hx, hpx⟩ := h
      have hxs : x ∈ ys := by
        rcases List.mem_cons.1 hx with rfl | hx
        · rw [hp] at hpx; simp at hpx
        · exact hx
      obtain ⟨z, hz, hpz⟩ := takeWhile_next p ys ⟨x, hxs, hpx⟩
      exact ⟨z, by simpa using hz, hpz⟩
    | false => exact ⟨y, by simp, hp⟩

theorem cstr_prefix (l : List Byte) (k : Nat) (hk : k < (cstr l).length) : (cstr l)[k]? = l[k]? := by
  have hp : cstr l <+: l := List.takeWhile_prefix _
  obtain ⟨t, ht⟩ := hp
  rw [← ht, List.getElem?_append_left (by rw [ht] at *; exact hk)]
  rw [ht]

/-- What cutting the version off does: nothing, or one `@` inside the string becomes 0. -/
theorem cutVersion_spec (img : List Byte) (off e : Nat) (hoe : off ≤ e) (h0 : img[e]? = some 0#8) :
    (cutVersion img off).length = img.length ∧
    ∀ k, (cutVersion img off)[k]? = img[k]? ∨
      (img[k]? = some 0x40#8 ∧ (cutVersion img off)[k]? = some 0#8 ∧ off ≤ k ∧ k < e) := by
  unfold cutVersion
  dsimp only
  split
  · rename_i hc
    have hm : (0x40#8 : Byte) ∈ cstr (img.drop off) := by simpa using hc
    have hl0 : (img.drop off)[e - off]? = some 0#8 := by
      rw [List.getElem?_drop, show off + (e - off) = e by omega]; exact h0
    obtain ⟨x, hx, hpx⟩ := takeWhile_next (fun b : Byte => decide (b ≠ 0x40#8)) (cstr (img.drop off)) ⟨_, hm, by simp⟩
    have hlt : (unversioned (cstr (img.drop off))).length < (cstr (img.drop off)).length :=
      (List.getElem?_eq_some_iff.1 hx).1
    have hx' := hx
    have hle := cstr_length_le _ _ hl0
    have hxe : x = 0x40#8 := by simpa using hpx
    subst hxe
    rw [show ((cstr (img.drop off)).takeWhile fun b : Byte => decide (b ≠ 0x40#8)) = unversioned (cstr (img.drop off)) from rfl,
      cstr_prefix _ _ hlt, List.getElem?_drop] at hx
    generalize (unversioned (cstr (img.drop off))).length = n at *
    have hlen : off + n + 1 ≤ img.length := (List.getElem?_eq_some_iff.1 hx).1
    refine ⟨pokeAt_length _ _ _ (by simpa using hlen), ?_⟩
    intro k
    by_cases hk : k = off + n
    · subst hk
      right
      refine ⟨hx, ?_, by omega, by omega⟩
      unfold pokeAt
      rw [List.append_assoc, List.getElem?_append_right (by simp)]
      rw [List.length_take, Nat.min_eq_left (by omega), Nat.sub_self]
      rfl
    · left
      apply pokeAt_getElem?_out _ _ _ _ (by simpa using hlen)
      simp only [List.length_cons, List.length_nil]
      omega
  · exact ⟨rfl, fun k => .inl rfl⟩

/-! ### The passes -/

/-- The address a section has in the target. -/
def secAddrOf (kpta : BitVec 64) (elfOffset : Nat) (load : BitVec 64) (s : ElfShdr) : BitVec 64 :=
  if s.typ ≠ 8 then kpta + BitVec.ofNat 64 elfOffset + BitVec.ofNat 64 s.offset
  else if s.addr ≠ 0#64 then s.addr + load else s.addr

theorem elfShdr_congr (a b : List Byte) (i : Nat) (hs : elfShoff a = elfShoff b)
    (h : ∀ k, elfShoff b + 64 * i ≤ k → k < elfShoff b + 64 * i + 64 → a[k]? = b[k]?) : elfShdr a i = elfShdr b i := by
  unfold elfShdr
  rw [hs]
  dsimp only
  congr 1
  case e_addr =>
    rw [ldField_congr a b _ 8 (fun k h1 h2 => h k (by omega) (by omega))]
  all_goals exact ldField_congr a b _ _ (fun k h1 h2 => h k (by omega) (by omega))

/-- The fields of `Elf64_Ehdr` the code uses are the same. -/
theorem ehdr_congr (a b : List Byte) (h : ∀ k, k < 64 → a[k]? = b[k]?) :
    elfShoff a = elfShoff b ∧ elfShnum a = elfShnum b ∧ elfShstrndx a = elfShstrndx b :=
  ⟨ldField_congr _ _ _ _ fun k _ h2 => h k (by omega), ldField_congr _ _ _ _ fun k _ h2 => h k (by omega),
    ldField_congr _ _ _ _ fun k _ h2 => h k (by omega)⟩

/-- Some of the section addresses have been set. -/
structure ShdrsSet (kpta : BitVec 64) (elfOffset : Nat) (load : BitVec 64) (img img1 : List Byte) (done : Nat → Prop) : Prop where
  len : img1.length = img.length
  other : ∀ k, (∀ i, done i → k < elfShoff img + 64 * i + 16 ∨ elfShoff img + 64 * i + 24 ≤ k) → img1[k]? = img[k]?
  addr : ∀ i, done i → ldField img1 (elfShoff img + 64 * i + 16) 8 = (secAddrOf kpta elfOffset load (elfShdr img i)).toNat

theorem resolveShdrs_spec (kpta : BitVec 64) (elfOffset : Nat) (load : BitVec 64) (img : List Byte)
    (hsh : 64 ≤ elfShoff img) : ∀ (is : List Nat) (img1 : List Byte) (done : Nat → Prop),
      (∀ i ∈ is, elfShoff img + 64 * i + 64 ≤ img.length) → (∀ i ∈ is, ¬ done i) → is.Nodup →
      ShdrsSet kpta elfOffset load img img1 done →
      ShdrsSet kpta elfOffset load img (resolveShdrs kpta elfOffset load is img1) (fun i => done i ∨ i ∈ is)
  | [], img1, done, _, _, _, h => by
    simp only [resolveShdrs, List.not_mem_nil, or_false]; exact h
  | i :: is, img1, done, hfit, hnd, hdup, h => by
    have hsho : elfShoff img1 = elfShoff img := (ehdr_congr img1 img fun k hk => h.other k fun j _ => .inl (by omega)).1
    have hd := List.nodup_cons.1 hdup
    have hf := hfit i (by simp)
    have hs : elfShdr img1 i = elfShdr img i := by
      apply elfShdr_congr _ _ _ hsho
      intro k h1 h2
      apply h.other
      intro j hj
      have : j ≠ i := fun hc => hnd i (by simp) (hc ▸ hj)
      omega
    unfold resolveShdrs
    dsimp only
    rw [hsho, hs]
    change ShdrsSet kpta elfOffset load img (resolveShdrs kpta elfOffset load is
      (pokeAt img1 (elfShoff img + 64 * i + 16) (leBytes 8 (secAddrOf kpta elfOffset load (elfShdr img i)).toNat))) _
    have hl8 := leBytes_length 8 (secAddrOf kpta elfOffset load (elfShdr img i)).toNat
    have hfit1 : elfShoff img + 64 * i + 16 + (leBytes 8 (secAddrOf kpta elfOffset load (elfShdr img i)).toNat).length ≤ img1.length := by
      rw [hl8, h.len]; omega
    have h' : ShdrsSet kpta elfOffset load img
        (pokeAt img1 (elfShoff img + 64 * i + 16) (leBytes 8 (secAddrOf kpta elfOffset load (elfShdr img i)).toNat))
        (fun j => done j ∨ j = i) := by
      constructor
      · rw [pokeAt_length _ _ _ hfit1, h.len]
      · intro k hk
        rw [pokeAt_getElem?_out _ _ _ _ hfit1 (by rw [hl8]; have := hk i (.inr rfl); omega)]
        exact h.other k fun j hj => hk j (.inl hj)
      · intro j hj
        by_cases hji : j = i
        · subst hji
          exact ldField_poke_bv _ _ _ (by rw [h.len]; omega)
        · have hdj : done j := by rcases hj with hj | hj; exact hj; exact absurd hj hji
          rw [← h.addr j hdj]
          apply ldField_congr
          intro k h1 h2
          apply pokeAt_getElem?_out _ _ _ _ hfit1
          rw [hl8]
          omega
    have := resolveShdrs_spec kpta elfOffset load img hsh is _ _ (fun j hj => hfit j (by simp [hj]))
      (fun j hj => by
        rintro (hc | hc)
        · exact hnd j (by simp [hj]) hc
        · exact hd.1 (hc ▸ hj)) hd.2 h'
    have he : (fun j => (done j ∨ j = i) ∨ j ∈ is) = fun j => done j ∨ j ∈ i :: is := by
      funext j
      simp [List.mem_cons, or_assoc]
    rw [he] at this
    exact this

theorem symbolResolve_congr (a : Arch) (j : BitVec 32) (resolve : CStr → BitVec 64) (f g : Nat → BitVec 64)
    (base : BitVec 64) (s s' : PSym) (t : Option JmpTable) (hs : s.sym = s'.sym) (hr : resolve s.name = resolve s'.name)
    (hf : f s'.sym.shndx = g s'.sym.shndx) :
    symbolResolve a j resolve f base s t = symbolResolve a j resolve g base s' t := by
  unfold symbolResolve
  rw [hs, hr, hf]

theorem symbolResolve_keeps (a : Arch) (j : BitVec 32) (resolve : CStr → BitVec 64) (f : Nat → BitVec 64)
    (base : BitVec 64) (s : PSym) (t : Option JmpTable) (s' : Sym) (t' : Option JmpTable)
    (h : symbolResolve a j resolve f base s t = some (s', t')) :
    s'.shndx = s.sym.shndx ∧ s'.typ = s.sym.typ ∧ s'.bind = s.sym.bind := by
  unfold symbolResolve at h
  cases ht : s.sym.typ <;> rw [ht] at h <;> dsimp only at h
  case func | object =>
    split at h
    · split at h
      · simp at h
      · split at h
        · simp at h
        · split at h
          · simp at h
          · simp only [Option.some.injEq, Prod.mk.injEq] at h; rw [← h.1]; exact ⟨rfl, ht, rfl⟩
    · simp only [Option.some.injEq, Prod.mk.injEq] at h; rw [← h.1]; exact ⟨rfl, ht, rfl⟩
  all_goals first
    | (simp only [Option.some.injEq, Prod.mk.injEq] at h; rw [← h.1]; exact ⟨rfl, ht, rfl⟩)
    | simp at h

/-- Where the symbol table and its strings are, in an image whose section addresses are set. -/
structure SymtabAt (img : List Byte) (shnum symoff n stroff strsize : Nat) : Prop where
  shoff : 64 ≤ elfShoff img
  sym0 : 64 ≤ symoff
  str0 : 64 ≤ stroff
  symFits : symoff + 24 * n ≤ img.length
  strFits : stroff + strsize ≤ img.length
  symTab : symoff + 24 * n ≤ elfShoff img ∨ elfShoff img + 64 * shnum ≤ symoff
  strTab : stroff + strsize ≤ elfShoff img ∨ elfShoff img + 64 * shnum ≤ stroff
  symStr : symoff + 24 * n ≤ stroff ∨ stroff + strsize ≤ symoff
  strPos : 0 < strsize
  strEnd : img[stroff + strsize - 1]? = some 0#8
  names : ∀ k, 1 ≤ k → k < n → ldField img (symoff + 24 * k) 4 < strsize
  shndx : ∀ k, 1 ≤ k → k < n → (elfSym img (symoff + 24 * k)).shndx < shnum

/-- The symbols `1 .. K - 1` have been resolved to `val`. -/
structure SymsSet (symoff stroff strsize : Nat) (img1 img : List Byte) (K : Nat) (val : Nat → Sym) : Prop where
  len : img.length = img1.length
  other : ∀ j, (∀ k, 1 ≤ k → k < K → j < symoff + 24 * k + 8 ∨ symoff + 24 * k + 24 ≤ j) →
    img[j]? = img1[j]? ∨ (img1[j]? = some 0x40#8 ∧ img[j]? = some 0#8 ∧ stroff ≤ j ∧ j < stroff + strsize)
  done : ∀ k, 1 ≤ k → k < K → elfSym img (symoff + 24 * k) = val k

theorem elfSym_congr (a b : List Byte) (off : Nat) (h : ∀ k, off + 4 ≤ k → k < off + 24 → a[k]? = b[k]?) :
    elfSym a off = elfSym b off := by
  unfold elfSym
  rw [ldField_congr a b (off + 8) 8 (fun k _ _ => h k (by omega) (by omega)),
    ldField_congr a b (off + 16) 8 (fun k _ _ => h k (by omega) (by omega)),
    ldField_congr a b (off + 6) 2 (fun k _ _ => h k (by omega) (by omega)),
    ldField_congr a b (off + 4) 1 (fun k _ _ => h k (by omega) (by omega))]

/-- Writing value and size of a symbol. -/
theorem elfSym_store (img : List Byte) (off : Nat) (s : Sym) (h : off + 24 ≤ img.length)
    (h1 : s.shndx = (elfSym img off).shndx) (h2 : s.typ = (elfSym img off).typ) (h3 : s.bind = (elfSym img off).bind) :
    elfSym (pokeAt (pokeAt img (off + 8) (leBytes 8 s.value.toNat)) (off + 16) (leBytes 8 s.size.toNat)) off = s ∧
    (pokeAt (pokeAt img (off + 8) (leBytes 8 s.value.toNat)) (off + 16) (leBytes 8 s.size.toNat)).length = img.length ∧
    ∀ k, k < off + 8 ∨ off + 24 ≤ k →
      (pokeAt (pokeAt img (off + 8) (leBytes 8 s.value.toNat)) (off + 16) (leBytes 8 s.size.toNat))[k]? = img[k]? := by
  have hl1 := leBytes_length 8 s.value.toNat
  have hl2 := leBytes_length 8 s.size.toNat
  have hlen : (pokeAt img (off + 8) (leBytes 8 s.value.toNat)).length = img.length :=
    pokeAt_length _ _ _ (by omega)
  have hout2 : ∀ k, k < off + 16 ∨ off + 24 ≤ k →
      (pokeAt (pokeAt img (off + 8) (leBytes 8 s.value.toNat)) (off + 16) (leBytes 8 s.size.toNat))[k]? =
        (pokeAt img (off + 8) (leBytes 8 s.value.toNat))[k]? :=
    fun k hk => pokeAt_getElem?_out _ _ _ _ (by omega) (by omega)
  have hout : ∀ k, k < off + 8 ∨ off + 24 ≤ k →
      (pokeAt (pokeAt img (off + 8) (leBytes 8 s.value.toNat)) (off + 16) (leBytes 8 s.size.toNat))[k]? = img[k]? := by
    intro k hk
    rw [hout2 k (by omega)]
    exact pokeAt_getElem?_out _ _ _ _ (by omega) (by omega)
  refine ⟨?_, ?_, hout⟩
  · have e1 := ldField_congr _ _ (off + 8) 8 (fun k _ _ => hout2 k (by omega))
    have e2 := ldField_poke_bv (pokeAt img (off + 8) (leBytes 8 s.value.toNat)) (off + 16) s.size (by omega)
    have e3 := ldField_congr _ _ (off + 6) 2 (fun k _ _ => hout k (by omega))
    have e4 := ldField_congr _ _ (off + 4) 1 (fun k _ _ => hout k (by omega))
    have e5 := ldField_poke_bv img (off + 8) s.value (by omega)
    unfold elfSym at h1 h2 h3 ⊢
    rw [e1, e2, e3, e4, e5]
    obtain ⟨v, sz, sh, ty, bi⟩ := s
    simp only at h1 h2 h3 ⊢
    simp [h1, h2, h3]
  · rw [pokeAt_length _ _ _ (by omega), hlen]

theorem resolveSymtab_spec (a : Arch) (junk : Nat → BitVec 32) (resolve : CStr → BitVec 64) (base : BitVec 64)
    (hres : ∀ x y, unversioned x = unversioned y → resolve x = resolve y)
    (secAddr : Nat → BitVec 64) (img1 : List Byte) (shnum symoff n stroff strsize : Nat)
    (S : SymtabAt img1 shnum symoff n stroff strsize)
    (hsec : ∀ i, i < shnum → secAddr i = (elfShdr img1 i).addr) (R : Option (List Byte × Option JmpTable)) :
    ∀ (m K : Nat) (img : List Byte) (t : Option JmpTable) (val : Nat → Sym), 1 ≤ K → K + m = n →
      SymsSet symoff stroff strsize img1 img K val →
      resolveSymtab a junk resolve base symoff stroff (List.range' K m) img t = R →
      (R = none → resolveSyms a junk resolve secAddr base K
          ((List.range' K m).map fun k => ⟨elfSymName img1 stroff (symoff + 24 * k), elfSym img1 (symoff + 24 * k)⟩) t = none) ∧
      ∀ img2 t2, R = some (img2, t2) → ∃ ss' val', resolveSyms a junk resolve secAddr base K
          ((List.range' K m).map fun k => ⟨elfSymName img1 stroff (symoff + 24 * k), elfSym img1 (symoff + 24 * k)⟩) t =
            some (ss', t2) ∧
        (∀ k, k < K → val' k = val k) ∧ (∀ j, j < m → ss'[j]? = some (val' (K + j))) ∧
        SymsSet symoff stroff strsize img1 img2 n val'
  | 0, K, img, t, val, hK, hKn, H, h => by
    simp only [List.range'_zero, resolveSymtab] at h
    subst h
    refine ⟨by simp, ?_⟩
    intro img2 t2 h
    simp only [Option.some.injEq, Prod.mk.injEq] at h
    obtain ⟨rfl, rfl⟩ := h
    rw [show K = n by omega] at H
    exact ⟨[], val, rfl, fun _ _ => rfl, by omega, H⟩
  | m + 1, K, img, t, val, hK, hKn, H, h => by
    rw [List.range'_succ] at h
    unfold resolveSymtab at h
    dsimp only at h
    -- nothing that is read here has changed
    have hsame : ∀ k, k < stroff ∨ stroff + strsize ≤ k →
        (∀ i, 1 ≤ i → i < K → k < symoff + 24 * i + 8 ∨ symoff + 24 * i + 24 ≤ k) → img[k]? = img1[k]? := by
      intro k h1 h2
      rcases H.other k h2 with h | ⟨_, _, h3, h4⟩
      · exact h
      · omega
    have hsymK : elfSym img (symoff + 24 * K) = elfSym img1 (symoff + 24 * K) := by
      apply elfSym_congr
      intro k h1 h2
      have := S.symStr
      exact hsame k (by omega) (by intro i hi1 hi2; omega)
    have hnameK : ldField img (symoff + 24 * K) 4 = ldField img1 (symoff + 24 * K) 4 := by
      apply ldField_congr
      intro k h1 h2
      have := S.symStr
      exact hsame k (by omega) (by intro i hi1 hi2; omega)
    have hshoff : elfShoff img = elfShoff img1 := by
      apply (ehdr_congr _ _ _).1
      intro k hk
      have := S.sym0
      have := S.str0
      exact hsame k (by omega) (by intro i hi1 hi2; omega)
    have hshdr : ∀ i, i < shnum → elfShdr img i = elfShdr img1 i := by
      intro i hi
      apply elfShdr_congr _ _ _ hshoff
      intro k h1 h2
      have := S.symTab
      have := S.strTab
      exact hsame k (by omega) (by intro i hi1 hi2; omega)
    have hstr : ∀ k, stroff ≤ k → k < stroff + strsize →
        img[k]? = img1[k]? ∨ (img1[k]? = some 0x40#8 ∧ img[k]? = some 0#8) := by
      intro k h1 h2
      have := S.symStr
      rcases H.other k (by intro i hi1 hi2; omega) with h | h
      · exact .inl h
      · exact .inr ⟨h.1, h.2.1⟩
    have hpos := S.strPos
    have hend : img[stroff + strsize - 1]? = some 0#8 := by
      rcases hstr (stroff + strsize - 1) (by omega) (by omega) with h | h
      · rw [h, S.strEnd]
      · exact h.2
    have hn := S.names K hK (by omega)
    have hun : unversioned (elfSymName img stroff (symoff + 24 * K)) = unversioned (elfSymName img1 stroff (symoff + 24 * K)) := by
      unfold elfSymName
      rw [hnameK]
      apply uname_congr _ _ _ (stroff + strsize - 1) (by omega) hend
      intro k h1 h2
      rcases hstr k (by omega) (by omega) with h | h
      · exact .inl h
      · exact .inr ⟨_, _, h.2, h.1, rfl, rfl⟩
    have hstep := symbolResolve_congr a (junk K) resolve (fun n => (elfShdr img n).addr) secAddr base
      ⟨elfSymName img stroff (symoff + 24 * K), elfSym img (symoff + 24 * K)⟩
      ⟨elfSymName img1 stroff (symoff + 24 * K), elfSym img1 (symoff + 24 * K)⟩ t hsymK (hres _ _ hun)
      (by
        have hx := S.shndx K hK (by omega)
        dsimp only
        rw [hsec _ hx, hshdr _ hx])
    rw [hstep] at h
    rw [List.range'_succ, List.map_cons]
    unfold resolveSyms
    cases hr : symbolResolve a (junk K) resolve secAddr base
        ⟨elfSymName img1 stroff (symoff + 24 * K), elfSym img1 (symoff + 24 * K)⟩ t with
    | none =>
      rw [hr] at h
      dsimp only at h
      subst h
      exact ⟨fun _ => rfl, by simp⟩
    | some q =>
      obtain ⟨s', t'⟩ := q
      rw [hr] at h
      dsimp only at h ⊢
      generalize hc : (if ((elfSym img (symoff + 24 * K)).wanted &&
          ((elfSym img (symoff + 24 * K)).typ == .func || (elfSym img (symoff + 24 * K)).typ == .object)) = true
        then cutVersion img (stroff + ldField img (symoff + 24 * K) 4) else img) = imgc at h
      have hcut : imgc.length = img.length ∧ ∀ k, imgc[k]? = img[k]? ∨
          (img[k]? = some 0x40#8 ∧ imgc[k]? = some 0#8 ∧ stroff ≤ k ∧ k < stroff + strsize) := by
        have := cutVersion_spec img (stroff + ldField img (symoff + 24 * K) 4) (stroff + strsize - 1) (by rw [hnameK]; omega) hend
        split at hc
        · rw [← hc]
          refine ⟨this.1, fun k => ?_⟩
          rcases this.2 k with h | ⟨h1, h2, h3, h4⟩
          · exact .inl h
          · exact .inr ⟨h1, h2, by omega, by omega⟩
        · rw [← hc]; exact ⟨rfl, fun k => .inl rfl⟩
      have hkeep := symbolResolve_keeps _ _ _ _ _ _ _ _ _ hr
      have hsymc : elfSym imgc (symoff + 24 * K) = elfSym img1 (symoff + 24 * K) := by
        rw [← hsymK]
        apply elfSym_congr
        intro k h1 h2
        have := S.symStr
        rcases hcut.2 k with h | ⟨_, _, h3, h4⟩
        · exact h
        · omega
      have hfits := S.symFits
      obtain ⟨st1, st2, st3⟩ := elfSym_store imgc (symoff + 24 * K) s' (by rw [hcut.1, H.len]; omega)
        (by rw [hsymc]; exact hkeep.1) (by rw [hsymc]; exact hkeep.2.1) (by rw [hsymc]; exact hkeep.2.2)
      generalize pokeAt (pokeAt imgc (symoff + 24 * K + 8) (leBytes 8 s'.value.toNat)) (symoff + 24 * K + 16)
        (leBytes 8 s'.size.toNat) = img' at *
      have H' : SymsSet symoff stroff strsize img1 img' (K + 1) (fun k => if k = K then s' else val k) := by
        constructor
        · rw [st2, hcut.1, H.len]
        · intro j hj
          rw [st3 j (by have := hj K hK (by omega); omega)]
          have h1 := H.other j (fun k hk1 hk2 => hj k hk1 (by omega))
          rcases hcut.2 j with h | ⟨h2, h3, h4, h5⟩
          · rw [h]; exact h1
          · right
            refine ⟨?_, h3, h4, h5⟩
            rcases h1 with h1 | h1
            · rw [← h1, h2]
            · rw [h1.2.1] at h2; simp at h2
        · intro k hk1 hk2
          by_cases hkK : k = K
          · subst hkK; simp [st1]
          · rw [if_neg hkK, ← H.done k hk1 (by omega)]
            apply elfSym_congr
            intro j h1 h2
            rw [st3 j (by omega)]
            have := S.symStr
            rcases hcut.2 j with h | ⟨_, _, h4, h5⟩
            · exact h
            · omega
      obtain ⟨e0, e1⟩ := resolveSymtab_spec a junk resolve base hres secAddr img1 shnum symoff n stroff
        strsize S hsec R m (K + 1) img' t' _ (by omega) (by omega) H' h
      refine ⟨fun hR => by rw [e0 hR], ?_⟩
      intro img2 t2 hR
      obtain ⟨ss', val', e1, e2, e3, e4⟩ := e1 img2 t2 hR
      refine ⟨s' :: ss', val', by rw [e1], ?_, ?_, e4⟩
      · intro k hk
        rw [e2 k (by omega), if_neg (by omega)]
      · intro j hj
        cases j with
        | zero => simp [e2 K (by omega)]
        | succ j =>
          rw [List.getElem?_cons_succ, e3 j (by omega)]
          congr 2; omega

end Verif
