import Verif.Model.GenArgs
import Verif.Spec.GenArgs
import Verif.Proof.GenLists
import Verif.Props.GenSame
/-
C62: the lists of symbols and the file of functions select exactly the functions they name.
C67: the input of the patch generator is read line by line.
-/
namespace Verif

section Target

variable [AsmTarget]

/-! ### Parts -/

theorem piece_whole {sep : Byte} {x l : List Byte} (h : sep ∉ x) : Piece sep x l ↔ l = x := by
  constructor
  · rintro ⟨_, a, b, e, ha, hb⟩
    have h1 : a = [] := by
      rcases ha with ha | ha
      · exact ha
      · exact absurd (by rw [e]; simp [List.mem_of_getLast? ha]) h
    have h2 : b = [] := by
      rcases hb with hb | hb
      · exact hb
      · exact absurd (by rw [e]; simp [List.mem_of_head? hb]) h
    rw [e, h1, h2]; simp
  · rintro rfl
    exact ⟨h, [], [], by simp, Or.inl rfl, Or.inl rfl⟩

theorem first_sep {sep : Byte} {x y r s : List Byte} (hx : sep ∉ x) (hy : sep ∉ y) (h : x ++ sep :: r = y ++ sep :: s) :
    x = y ∧ r = s := by
  induction x generalizing y with
  | nil =>
    cases y with
    | nil => simpa using h
    | cons c y =>
      simp only [List.nil_append, List.cons_append, List.cons.injEq] at h
      exact absurd (by rw [← h.1]; exact List.mem_cons_self ..) hy
  | cons c x ih =>
    cases y with
    | nil =>
      simp only [List.nil_append, List.cons_append, List.cons.injEq] at h
      exact absurd (by rw [h.1]; exact List.mem_cons_self ..) hx
    | cons d y =>
      simp only [List.cons_append, List.cons.injEq] at h
      obtain ⟨e1, e2⟩ := ih (fun h => hx (List.mem_cons_of_mem _ h)) (fun h => hy (List.mem_cons_of_mem _ h)) h.2
      exact ⟨by rw [h.1, e1], e2⟩

theorem piece_cons {sep : Byte} {x r l : List Byte} (h : sep ∉ x) : Piece sep (x ++ sep :: r) l ↔ l = x ∨ Piece sep r l := by
  constructor
  · rintro ⟨hl, a, b, e, ha, hb⟩
    by_cases ha0 : a = []
    · subst ha0
      rw [List.nil_append] at e
      rcases hb with rfl | hb
      · rw [List.append_nil] at e
        exact absurd (by rw [← e]; simp) hl
      · cases b with
        | nil => simp at hb
        | cons c b =>
          simp only [List.head?_cons, Option.some.injEq] at hb
          subst hb
          exact Or.inl (first_sep h hl e).1.symm
    · have ha := ha.resolve_left ha0
      obtain ⟨a', rfl⟩ : ∃ a', a = a' ++ [sep] := by
        refine ⟨a.dropLast, ?_⟩
        rw [List.getLast?_eq_some_getLast ha0, Option.some.injEq] at ha
        rw [← ha, List.dropLast_concat_getLast]
      right
      have e : x ++ sep :: r = a' ++ sep :: (l ++ b) := by rw [e]; simp
      rcases List.append_eq_append_iff.mp e with ⟨c, h1, h2⟩ | ⟨c, h1, h2⟩
      · cases c with
        | nil =>
          simp only [List.nil_append, List.cons.injEq, true_and] at h2
          exact ⟨hl, [], b, by simpa using h2, Or.inl rfl, hb⟩
        | cons d c =>
          simp only [List.cons_append, List.cons.injEq] at h2
          refine ⟨hl, c ++ [sep], b, by rw [h2.2]; simp, Or.inr (by simp), hb⟩
      · cases c with
        | nil =>
          simp only [List.nil_append, List.cons.injEq, true_and] at h2
          exact ⟨hl, [], b, by simpa using h2.symm, Or.inl rfl, hb⟩
        | cons d c =>
          simp only [List.cons_append, List.cons.injEq] at h2
          exact absurd (by rw [h1, h2.1]; simp) h
  · rintro (rfl | ⟨hl, a, b, e, ha, hb⟩)
    · exact ⟨h, [], sep :: r, by simp, Or.inl rfl, Or.inr rfl⟩
    · refine ⟨hl, x ++ sep :: a, b, by rw [e]; simp, Or.inr ?_, hb⟩
      rcases ha with rfl | ha
      · simp
      · rw [List.getLast?_append, List.getLast?_cons, ha]; simp

/-! ### Lists -/

theorem strtok_mem {t acc e : List Byte} (h : 44#8 ∉ acc) :
    e ∈ strtokAll acc t ↔ e ≠ [] ∧ Piece 44#8 (acc.reverse ++ t) e := by
  induction t generalizing acc with
  | nil =>
    have hr : 44#8 ∉ acc.reverse := by simpa using h
    rw [strtokAll, List.append_nil, piece_whole hr]
    split
    · rename_i h0; subst h0; simp
    · rename_i h0
      simp only [List.mem_singleton]
      constructor
      · rintro rfl; exact ⟨by simpa using h0, rfl⟩
      · exact fun h => h.2
  | cons c r ih =>
    rw [strtokAll]
    have hr : 44#8 ∉ acc.reverse := by simpa using h
    by_cases hc : c = 44#8
    · subst hc
      rw [if_pos rfl, piece_cons hr]
      split
      · rename_i h0
        subst h0
        rw [ih (by simp)]
        simp only [List.reverse_nil, List.nil_append]
        constructor
        · exact fun ⟨h1, h2⟩ => ⟨h1, Or.inr h2⟩
        · exact fun ⟨h1, h2⟩ => ⟨h1, h2.resolve_left h1⟩
      · rename_i h0
        rw [List.mem_cons, ih (by simp)]
        simp only [List.reverse_nil, List.nil_append]
        constructor
        · rintro (rfl | ⟨h1, h2⟩)
          · exact ⟨by simpa using h0, Or.inl rfl⟩
          · exact ⟨h1, Or.inr h2⟩
        · rintro ⟨h1, h2 | h2⟩
          · exact Or.inl h2
          · exact Or.inr ⟨h1, h2⟩
    · rw [if_neg hc, ih (by
        intro hm
        rcases List.mem_cons.mp hm with h' | h'
        · exact hc h'.symm
        · exact h h')]
      rw [List.reverse_cons, List.append_assoc]
      rfl

theorem before_no (sep : Byte) (l : List Byte) : sep ∉ l.takeWhile fun c => decide (c ≠ sep) := by
  induction l with
  | nil => simp
  | cons c l ih =>
    rw [List.takeWhile_cons]
    split
    · rename_i h
      simp only [ne_eq, decide_not, Bool.not_eq_eq_eq_not, Bool.not_true, decide_eq_false_iff_not] at h
      intro hm
      rcases List.mem_cons.mp hm with h' | h'
      · exact h h'.symm
      · exact ih h'
    · simp

theorem symEntry_eq (e : List Byte) :
    (58#8 ∉ e ∧ symEntry e = { filename := none, sym := e }) ∨
    ∃ p r, e = p ++ 58#8 :: r ∧ 58#8 ∉ p ∧ symEntry e = { filename := some p, sym := r } := by
  have hsplit := List.takeWhile_append_dropWhile (p := fun c : Byte => decide (c ≠ 58#8)) (l := e)
  have hno := before_no 58#8 e
  have hd : symEntry e = match e.dropWhile fun c => decide (c ≠ 58#8) with
      | [] => { filename := none, sym := e }
      | _ :: r => { filename := some (e.takeWhile fun c => decide (c ≠ 58#8)), sym := r } := by
    have hdrop : e.drop (e.takeWhile fun c => decide (c ≠ 58#8)).length = e.dropWhile fun c => decide (c ≠ 58#8) := by
      generalize e.takeWhile (fun c => decide (c ≠ 58#8)) = a at *
      generalize e.dropWhile (fun c => decide (c ≠ 58#8)) = b at *
      subst hsplit
      simp
    unfold symEntry
    dsimp only
    rw [hdrop]
    cases e.dropWhile (fun c => decide (c ≠ 58#8)) <;> rfl
  have hh := List.head?_dropWhile_not (fun c : Byte => decide (c ≠ 58#8)) e
  rw [hd]
  cases hdr : e.dropWhile fun c => decide (c ≠ 58#8) with
  | nil =>
    rw [hdr, List.append_nil] at hsplit
    exact Or.inl ⟨by rw [← hsplit]; exact hno, rfl⟩
  | cons c r =>
    rw [hdr] at hh hsplit
    have hc : c = 58#8 := by simpa using hh
    subst hc
    exact Or.inr ⟨_, r, hsplit.symm, hno, rfl⟩

theorem symEntry_names {e file : List Byte} {sym : Kpstr} (hs : sym.Ok) :
    (((symEntry e).filename.all fun n => n.isPrefixOf file) && decide (kpstrcmpz sym (symEntry e).sym = 0)) = true ↔
      EntryNames file sym.text e := by
  have hz : ∀ z, kpstrcmpz sym z = 0 ↔ sym.text = z := by
    intro z
    unfold kpstrcmpz
    rw [kpstrcmp_zero hs (kpz_ok _), kpz_text]
  rcases symEntry_eq e with ⟨hc, he⟩ | ⟨p, r, hc, hno, he⟩
  · rw [he]
    simp only [Option.all_none, Bool.true_and, decide_eq_true_eq, hz]
    constructor
    · intro h; exact Or.inl ⟨hc, h.symm⟩
    · rintro (⟨_, h⟩ | ⟨p, h, _⟩)
      · exact h.symm
      · exact absurd (by rw [h]; simp) hc
  · rw [he]
    simp only [Option.all_some, Bool.and_eq_true, List.isPrefixOf_iff_prefix, decide_eq_true_eq, hz]
    constructor
    · rintro ⟨h1, h2⟩
      exact Or.inr ⟨p, by rw [h2]; exact hc, hno, h1⟩
    · rintro (⟨h, _⟩ | ⟨q, h1, h2, h3⟩)
      · exact absurd (by rw [hc]; simp) h
      · rw [hc] at h1
        obtain ⟨e1, e2⟩ := first_sep hno h2 h1
        exact ⟨by rw [e1]; exact h3, e2.symm⟩

theorem parseSymLists_eq {args : List (List Byte)} {acc syms : List SymDesc} (h : args.foldlM parseSymList acc = some syms) :
    syms = acc ++ args.flatMap fun t => (strtokAll [] t).map symEntry := by
  induction args generalizing acc with
  | nil => cases h; simp
  | cons t args ih =>
    rw [List.foldlM_cons] at h
    obtain ⟨l, h1, h⟩ := Option.bind_eq_some_iff.mp h
    unfold parseSymList at h1
    dsimp only at h1
    split at h1
    · cases h1
      rw [ih h, List.flatMap_cons, List.append_assoc]
    · cases h1

/-- C62, lists: the list made from the options has a symbol of a file exactly if one of the entries names it, for all options
and all names.  Missing: the name of the file should be compared as a whole (`C62_violated_file`), and lists may have any
length (`C62_violated_many`). -/
theorem C62_list_partial {args : List (List Byte)} {syms : List SymDesc} {file : List Byte} {sym : Kpstr}
    (h : parseSymLists args = some syms) (hs : sym.Ok) : inSyms file sym syms = true ↔ InList args file sym.text := by
  have := parseSymLists_eq h
  rw [List.nil_append] at this
  subst this
  unfold inSyms InList
  rw [List.any_eq_true]
  constructor
  · rintro ⟨d, hd, hk⟩
    obtain ⟨t, ht, hd⟩ := List.mem_flatMap.mp hd
    obtain ⟨e, he, rfl⟩ := List.mem_map.mp hd
    obtain ⟨h1, h2⟩ := (strtok_mem (by simp)).mp he
    exact ⟨t, ht, e, h1, by simpa using h2, (symEntry_names hs).mp hk⟩
  · rintro ⟨t, ht, e, h1, h2, h3⟩
    exact ⟨symEntry e, List.mem_flatMap.mpr ⟨t, ht, List.mem_map.mpr ⟨e, (strtok_mem (by simp)).mpr ⟨h1, by simpa using h2⟩, rfl⟩⟩,
      (symEntry_names hs).mpr h3⟩

theorem strtok_length : ∀ (t acc : List Byte), (strtokAll acc t).length ≤ t.count 44#8 + 1 := by
  intro t
  induction t with
  | nil => intro acc; unfold strtokAll; split <;> simp
  | cons c r ih =>
    intro acc
    unfold strtokAll
    split
    · rename_i hc
      have := ih []
      split <;> simp [hc] <;> omega
    · rename_i hc
      have := ih (c :: acc)
      rw [List.count_cons_of_ne hc]
      exact this

/-- C62, lists: options with at most 32 entries (one more than there are commas in each) are accepted. -/
theorem C62_list_accepted {args : List (List Byte)} (h : (args.map fun t => t.count 44#8 + 1).sum ≤ 32) :
    ∃ syms, parseSymLists args = some syms := by
  have key : ∀ (args : List (List Byte)) (acc : List SymDesc),
      acc.length + (args.map fun t => t.count 44#8 + 1).sum ≤ 32 → ∃ syms, args.foldlM parseSymList acc = some syms := by
    intro args
    induction args with
    | nil => intro acc _; exact ⟨acc, rfl⟩
    | cons t args ih =>
      intro acc h
      rw [List.map_cons, List.sum_cons] at h
      have := strtok_length t []
      rw [List.foldlM_cons]
      have hp : parseSymList acc t = some (acc ++ (strtokAll [] t).map symEntry) := by
        unfold parseSymList
        exact if_pos (by simp; omega)
      rw [hp]
      exact ih _ (by simp; omega)
  exact key args [] (by simpa using h)

end Target

section X86

attribute [local instance] x86Asm

/-- The hypothesis of `C62_list_accepted` is met by two options with 32 entries together. -/
example : ([lit "a.c:f,g", (lit "x") ++ (List.replicate 29 (lit ",h")).flatten].map fun t => t.count 44#8 + 1).sum = 32 := by
  decide +kernel

end X86

section Target

variable [AsmTarget]

/-! ### The file of functions -/

theorem fgets_lines {n : Nat} {t acc : List Byte} {P Q : List Byte → Prop} (hacc : 10#8 ∉ acc)
    (hshort : ∀ l, Piece 10#8 (acc.reverse ++ t) l → l.length < n) (hnil : ¬ P [])
    (hP : ∀ l, Q (l ++ [10#8]) ↔ P l) (hQ : ∀ l, 10#8 ∉ l → (Q l ↔ P l)) :
    (∃ b ∈ fgetsAll n acc t, Q b) ↔ ∃ l, Piece 10#8 (acc.reverse ++ t) l ∧ P l := by
  induction t generalizing acc with
  | nil =>
    have hr : 10#8 ∉ acc.reverse := by simpa using hacc
    rw [fgetsAll, List.append_nil]
    simp only [piece_whole hr]
    split
    · rename_i h0
      subst h0
      simp [hnil]
    · simp [hQ _ hr]
  | cons c r ih =>
    have hr : 10#8 ∉ acc.reverse := by simpa using hacc
    rw [fgetsAll]
    by_cases hc : c = 10#8
    · subst hc
      rw [if_pos (Or.inl rfl)]
      have hsh : ∀ l, Piece 10#8 ([].reverse ++ r) l → l.length < n := by
        intro l hl
        exact hshort l ((piece_cons hr).mpr (Or.inr (by simpa using hl)))
      have ih := ih (acc := []) (by simp) hsh
      simp only [List.reverse_nil, List.nil_append] at ih
      simp only [List.mem_cons, List.reverse_cons, piece_cons hr, ih, hP, or_and_right, exists_or,
        exists_eq_left]
    · have hlen : ¬ acc.length + 1 = n := by
        intro hn
        have hx : 10#8 ∉ (acc.reverse ++ c :: r).takeWhile fun c => decide (c ≠ 10#8) := by
          exact before_no _ _
        have hp : Piece 10#8 (acc.reverse ++ c :: r) ((acc.reverse ++ c :: r).takeWhile fun c => decide (c ≠ 10#8)) := by
          have hs := List.takeWhile_append_dropWhile (p := fun c : Byte => decide (c ≠ 10#8)) (l := acc.reverse ++ c :: r)
          refine ⟨hx, [], _, by rw [List.nil_append]; exact hs.symm, Or.inl rfl, ?_⟩
          have := List.head?_dropWhile_not (fun c : Byte => decide (c ≠ 10#8)) (acc.reverse ++ c :: r)
          cases hd : (acc.reverse ++ c :: r).dropWhile fun c => decide (c ≠ 10#8) with
          | nil => exact Or.inl rfl
          | cons d ds => rw [hd] at this; right; simpa using this
        have := hshort _ hp
        have hall : ∀ b ∈ acc.reverse ++ [c], decide (b ≠ 10#8) = true := by
          intro b hb
          rw [decide_eq_true_iff]
          rcases List.mem_append.mp hb with hb | hb
          · exact fun e => hr (e ▸ hb)
          · simp only [List.mem_singleton] at hb; exact fun e => hc (hb ▸ e)
        rw [show acc.reverse ++ c :: r = (acc.reverse ++ [c]) ++ r by simp, List.takeWhile_append_of_pos hall] at this
        simp at this
        omega
      rw [if_neg (by rintro (h | h); exacts [hc h, hlen h])]
      have hacc' : 10#8 ∉ c :: acc := by
        intro hm
        rcases List.mem_cons.mp hm with h | h
        · exact hc h.symm
        · exact hacc h
      have e : (c :: acc).reverse ++ r = acc.reverse ++ c :: r := by simp
      rw [ih hacc' (by rw [e]; exact hshort), e]

theorem fgets_chars {n : Nat} {t acc : List Byte} {b : List Byte} (h : b ∈ fgetsAll n acc t) : ∀ c ∈ b, c ∈ acc ∨ c ∈ t := by
  induction t generalizing acc with
  | nil =>
    rw [fgetsAll] at h
    split at h
    · cases h
    · simp only [List.mem_singleton] at h
      subst h
      intro c hc
      exact Or.inl (by simpa using hc)
  | cons d r ih =>
    rw [fgetsAll] at h
    split at h
    · rcases List.mem_cons.mp h with rfl | h
      · intro c hc
        simp only [List.reverse_cons, List.mem_append, List.mem_reverse, List.mem_singleton] at hc
        rcases hc with hc | hc
        · exact Or.inl hc
        · exact Or.inr (hc ▸ List.mem_cons_self ..)
      · intro c hc
        rcases ih h c hc with h | h
        · cases h
        · exact Or.inr (List.mem_cons_of_mem _ h)
    · intro c hc
      rcases ih h c hc with h | h
      · rcases List.mem_cons.mp h with rfl | h
        · exact Or.inr (List.mem_cons_self ..)
        · exact Or.inl h
      · exact Or.inr (List.mem_cons_of_mem _ h)

theorem cstr_text {b : List Byte} (h : 0#8 ∉ b) : cstr b = b := by
  unfold cstr
  have := List.takeWhile_append_of_pos (p := fun x : Byte => x != 0) (l₁ := b) (l₂ := [])
    (fun c hc => by simp only [bne_iff_ne, ne_eq]; exact fun e => h ((show c = 0#8 from e) ▸ hc))
  simpa using this

theorem prefix_line {s l : List Byte} (hs : 10#8 ∉ s) : s <+: l ++ [10#8] ↔ s <+: l := by
  constructor
  · rintro ⟨t, ht⟩
    rcases List.append_eq_append_iff.mp ht with ⟨c, h1, h2⟩ | ⟨c, h1, h2⟩
    · exact ⟨c, h1.symm⟩
    · cases c with
      | nil => rw [List.append_nil] at h1; rw [h1]; exact List.prefix_refl _
      | cons d c =>
        simp only [List.cons_append, List.cons.injEq] at h2
        exact absurd (by rw [h1, ← h2.1]; simp) hs
  · exact fun h => h.trans (List.prefix_append ..)

theorem inFuncFile_iff {content : List Byte} {sym : Kpstr} (hs : sym.Ok) (hne : sym.text ≠ []) (hnl : 10#8 ∉ sym.text)
    (hc : ShortLines 1023 content) : inFuncFile content sym = true ↔ InFile content sym.text := by
  have hlen : sym.text.length = sym.l := by
    unfold Kpstr.text
    rw [List.length_take]
    have : sym.l ≤ sym.s.length := hs
    omega
  have h0 : sym.l ≠ 0 := by
    intro h
    rw [h] at hlen
    exact hne (List.length_eq_zero_iff.mp hlen)
  have key := fgets_lines (n := 1023) (t := content) (acc := []) (P := fun l => sym.text <+: l) (Q := fun l => sym.text <+: l)
    (by simp) (by simpa using hc.2) (by simpa using hne) (fun l => prefix_line hnl) (fun _ _ => Iff.rfl)
  simp only [List.reverse_nil, List.nil_append] at key
  unfold inFuncFile InFile
  split
  · rename_i h
    rcases h with h | h
    · exact absurd h h0
    · constructor
      · intro h; cases h
      · rintro ⟨l, hl, hp⟩
        have h1 := hc.2 l hl
        have h2 := hp.length_le
        omega
  · rw [← key, List.any_eq_true]
    have hb : ∀ b ∈ fgetsAll 1023 [] content, cstr b = b := by
      intro b hb
      refine cstr_text fun h => ?_
      rcases fgets_chars hb _ h with h | h
      · cases h
      · exact hc.1 h
    constructor
    · rintro ⟨b, h1, h2⟩
      rw [hb b h1, List.isPrefixOf_iff_prefix] at h2
      exact ⟨b, h1, h2⟩
    · rintro ⟨b, h1, h2⟩
      exact ⟨b, h1, by rw [hb b h1, List.isPrefixOf_iff_prefix]; exact h2⟩

/-- C62, file of functions: a function is ignored exactly if the options exclude it.  Missing: a line of the file should be
compared as a whole (`C62_violated_prefix`). -/
theorem C62_excluded_partial {o : GenOpts} {args : List (List Byte)} {file : List Byte} {sym : Kpstr}
    (h : parseSymLists args = some o.ignoreSyms) (hs : sym.Ok) (hne : sym.text ≠ []) (hnl : 10#8 ∉ sym.text)
    (hc : ∀ content, o.conf = some content → ShortLines 1023 content) :
    ignoredSym o file sym .func = true ↔ Excluded o.conf args file sym.text := by
  have hl : inSyms file sym o.ignoreSyms = true ↔ InList args file sym.text := C62_list_partial h hs
  unfold Excluded
  cases ho : o.conf with
  | none =>
    have : ignoredSym o file sym .func = inSyms file sym o.ignoreSyms := by
      unfold ignoredSym
      rw [ho]
    rw [this, hl]
    constructor
    · exact fun h => Or.inr ⟨fun _ e => (by cases e), h⟩
    · rintro (⟨_, e, _⟩ | ⟨_, h⟩)
      · cases e
      · exact h
  | some content =>
    by_cases hcf : Configured content
    · obtain ⟨c, hh, h1, h2⟩ := id hcf
      unfold ignoredSym
      rw [ho]
      dsimp only
      rw [hh]
      dsimp only
      rw [if_neg (by rintro (h | h); exacts [h1 h, h2 h]), Bool.not_eq_true', ← Bool.not_eq_true,
        inFuncFile_iff hs hne hnl (hc content ho)]
      constructor
      · exact fun h => Or.inl ⟨content, rfl, hcf, h⟩
      · rintro (⟨_, e, _, h⟩ | ⟨h, _⟩)
        · cases e; exact h
        · exact absurd hcf (h content rfl)
    · have : ignoredSym o file sym .func = inSyms file sym o.ignoreSyms := by
        unfold ignoredSym
        rw [ho]
        dsimp only
        cases hh : content.head? with
        | none => rfl
        | some c =>
          dsimp only
          rw [if_pos]
          by_contra hn
          rw [not_or] at hn
          exact hcf ⟨c, hh, hn.1, hn.2⟩
      rw [this, hl]
      constructor
      · exact fun h => Or.inr ⟨fun _ e => (by cases e; exact hcf), h⟩
      · rintro (⟨_, e, hf, _⟩ | ⟨_, h⟩)
        · cases e; exact absurd hf hcf
        · exact h

/-! ### What they do -/

section
variable {o : GenOpts} {i0 i1 : GenInput} {L : GSt} {out : List Out} {args : List (List Byte)}

theorem Run.lists {a : AnSt} {s : GSt} (hr : Run o L out a s) {b0 b1 : GBlock} (hb0 : b0 ∈ L.f0.bs) (hb1 : b1 ∈ L.f1.bs)
    (ht1 : b1.ty = .func) (hp : a.P1 b1.start = some b0.start) :
    (ignoredSym o L.f1.basename b1.human .func = true → a.I b1.start = true) ∧
    (inSyms L.f1.basename b1.human o.unlinkSyms = true → a.U b1.start = true) ∧
    (a.I b1.start = true ∨ b1.adapted.getD (o.uninit b1.start) = true ∨ inSyms L.f1.basename b1.human o.mustAdapt = false) := by
  have hLo := lok_of hr.k0 hr.k1
  obtain ⟨s1, _, e2⟩ := Option.bind_eq_some_iff.mp hr.fn
  have h1 := at_dec1 (a := a) hLo hb1
  obtain ⟨ho, ha⟩ := analyzeFuncs_lists e2 h1 ht1
  have hp : ((b1.dec a.P1 a.I a.U).pair.bind (a.st L).f0.at).isSome := by
    rw [show (b1.dec a.P1 a.I a.U).pair = some b0.start from hp, Option.bind_some, at_dec0 (a := a) hLo hb0]
    rfl
  obtain ⟨k1, k2⟩ := ho _ h1 hp
  have k1 : ignoredSym o L.f1.basename b1.human b1.ty = true → a.I b1.start = true := k1
  rw [ht1] at k1
  refine ⟨k1, k2, ?_⟩
  rcases ha with ha | ha
  · cases ha
  · exact ha _ h1 hp

/-- C62: a changed function that the options exclude is not replaced.  Missing: functions whose names are made by the compiler. -/
theorem C62_not_replaced_partial (h0 : i0.IsText) (h1 : i1.IsText) (hL : loadBoth i0 i1 = some L) (hn : L.f0.Named)
    (h : gensrc o i0 i1 = some out) (hg : parseSymLists args = some o.ignoreSyms)
    (hc : ∀ content, o.conf = some content → ShortLines 1023 content)
    {b0 b1 : GBlock} (hb0 : b0 ∈ L.f0.bs) (ht0 : b0.ty = .func) (hau : b0.auto = false)
    (hb1 : b1 ∈ L.f1.bs) (ht1 : b1.ty = .func) (hnm : b1.name.text = b0.name.text) (hnl : 10#8 ∉ b1.human.text)
    (hu : inSyms L.f1.basename b1.human o.unlinkSyms = false) (hx : Excluded o.conf args L.f1.basename b1.human.text) :
    NotReplaced out b0 b1 := by
  obtain ⟨a, s, hr⟩ := gensrc_run h0 h1 hL hn h
  have hne := hn b0 hb0 (Or.inl ht0)
  have hok := hr.k1.ok b1 hb1
  have hhn : b1.human.text ≠ [] := (hr.k1.human b1 hb1).mp (hnm ▸ hne)
  obtain ⟨e1, e2⟩ := hr.an.exact b0 hb0 ht0 hau hne b1 (find_of_name hr.k1 hb1 (hr.k0.ok b0 hb0).1 hnm (hnm ▸ hne))
  have hI := (hr.lists hb0 hb1 ht1 e2).1 ((C62_excluded_partial hg hok.2.1 hhn hnl hc).mpr hx)
  refine hr.notReplaced hb0 hb1 ht1 hnm hne e1 ?_
  rintro (hk | hk | hk)
  · rw [e2] at hk; cases hk
  · rw [(hr.an.unl b1 hb1 hk).2.2] at hu; cases hu
  · rw [hI] at hk; cases hk

/-- C62: a changed function that the options do not exclude and do not unlink is replaced. -/
theorem C62_replaced_partial (h0 : i0.IsText) (h1 : i1.IsText) (hL : loadBoth i0 i1 = some L) (hn : L.f0.Named)
    (h : gensrc o i0 i1 = some out) (hg : parseSymLists args = some o.ignoreSyms)
    (hc : ∀ content, o.conf = some content → ShortLines 1023 content)
    {uargs : List (List Byte)} (hgu : parseSymLists uargs = some o.unlinkSyms)
    {b0 b1 : GBlock} (hb0 : b0 ∈ L.f0.bs) (ht : b0.ty = .func) (hau : b0.auto = false)
    (hb1 : b1 ∈ L.f1.bs) (hnm : b1.name.text = b0.name.text) (hnl : 10#8 ∉ b1.human.text)
    (hx : ¬ Excluded o.conf args L.f1.basename b1.human.text) (hu : ¬ InList uargs L.f1.basename b1.human.text)
    (hd : ∀ P, Matching L P → ¬ SameBlocks o L P b0 b1) : ∃ r, Replaced o L r out b0 b1 := by
  obtain ⟨a, s, hr⟩ := gensrc_run h0 h1 hL hn h
  have hok := hr.k1.ok b1 hb1
  have hhn : b1.human.text ≠ [] := (hr.k1.human b1 hb1).mp (hnm ▸ hn b0 hb0 (Or.inl ht))
  refine C46_changed_replaced_partial h0 h1 hL hn h hb0 ht hau hb1 hnm ?_ ?_ hd
  · rw [← Bool.not_eq_true, C62_excluded_partial hg hok.2.1 hhn hnl hc]; exact hx
  · rw [← Bool.not_eq_true, C62_list_partial hgu hok.2.1]; exact hu

/-- C62: a function to be unlinked is written as a new one, and no record says that it replaces the old one. -/
theorem C62_unlinked_partial (h0 : i0.IsText) (h1 : i1.IsText) (hL : loadBoth i0 i1 = some L) (hn : L.f0.Named)
    (h : gensrc o i0 i1 = some out) (hg : parseSymLists args = some o.unlinkSyms)
    {b0 b1 : GBlock} (hb0 : b0 ∈ L.f0.bs) (ht0 : b0.ty = .func) (hau : b0.auto = false)
    (hb1 : b1 ∈ L.f1.bs) (ht1 : b1.ty = .func) (hnm : b1.name.text = b0.name.text)
    (hx : InList args L.f1.basename b1.human.text) :
    (∃ r, Added o L r out b1) ∧ ∀ r ∈ recordsOf out, r.target ≠ some b0.name.text := by
  obtain ⟨a, s, hr⟩ := gensrc_run h0 h1 hL hn h
  have hne := hn b0 hb0 (Or.inl ht0)
  have hok := hr.k1.ok b1 hb1
  obtain ⟨e1, e2⟩ := hr.an.exact b0 hb0 ht0 hau hne b1 (find_of_name hr.k1 hb1 (hr.k0.ok b0 hb0).1 hnm (hnm ▸ hne))
  have hU := (hr.lists hb0 hb1 ht1 e2).2.1 ((C62_list_partial hg hok.2.1).mpr hx)
  refine ⟨?_, fun r hmr e => ?_⟩
  · obtain ⟨r2, hall, _⟩ := hr.rest
    exact ⟨r2, hall b1 hb1 ht1 hU⟩
  · obtain ⟨c1, hc1, _, et, _, _, hUr⟩ := hr.records r hmr
    rcases et with et | ⟨c0, hc0, hp, et⟩
    · rw [et] at e; cases e
    · rw [et] at e
      have := hr.k0.uniq c0 hc0 b0 hb0 (Option.some.inj e) (by rw [Option.some.inj e]; exact hne)
      subst this
      rw [e1] at hp
      have := start_inj hr.k1.order.starts hc1 hb1 (Option.some.inj hp).symm
      subst this
      rw [hUr hU] at et
      cases et

/-- C62: if a function that must be adapted and is not so is changed, the generator fails: when it succeeds, the function is
not replaced.  Missing: whether a function is adapted is read from uninitialised memory (`C62_violated_adapted`). -/
theorem C62_must_adapt_partial (h0 : i0.IsText) (h1 : i1.IsText) (hL : loadBoth i0 i1 = some L) (hn : L.f0.Named)
    (h : gensrc o i0 i1 = some out) (hg : parseSymLists args = some o.mustAdapt)
    {b0 b1 : GBlock} (hb0 : b0 ∈ L.f0.bs) (ht0 : b0.ty = .func) (hau : b0.auto = false)
    (hb1 : b1 ∈ L.f1.bs) (ht1 : b1.ty = .func) (hnm : b1.name.text = b0.name.text)
    (hu : inSyms L.f1.basename b1.human o.unlinkSyms = false)
    (ha : b1.adapted ≠ some true) (hz : o.uninit b1.start = false) (hx : InList args L.f1.basename b1.human.text) :
    NotReplaced out b0 b1 := by
  obtain ⟨a, s, hr⟩ := gensrc_run h0 h1 hL hn h
  have hne := hn b0 hb0 (Or.inl ht0)
  have hok := hr.k1.ok b1 hb1
  obtain ⟨e1, e2⟩ := hr.an.exact b0 hb0 ht0 hau hne b1 (find_of_name hr.k1 hb1 (hr.k0.ok b0 hb0).1 hnm (hnm ▸ hne))
  have hm := (C62_list_partial hg hok.2.1).mpr hx
  have hI : a.I b1.start = true := by
    rcases (hr.lists hb0 hb1 ht1 e2).2.2 with h | h | h
    · exact h
    · rw [hz] at h
      cases hb : b1.adapted with
      | none => rw [hb] at h; cases h
      | some v => rw [hb] at h; exact absurd (by rw [hb]; exact congrArg some h) ha
    · rw [hm] at h; cases h
  refine hr.notReplaced hb0 hb1 ht1 hnm hne e1 ?_
  rintro (hk | hk | hk)
  · rw [e2] at hk; cases hk
  · rw [(hr.an.unl b1 hb1 hk).2.2] at hu; cases hu
  · rw [hI] at hk; cases hk

end

/-! ### Lines of the input -/

theorem trim_eq {l : List Byte} (h : l.getLast? ≠ some 13#8) (hn : 10#8 ∉ l) : trimCrlf l = l ∧ trimCrlf (l ++ [10#8]) = l := by
  have key : l.reverse.dropWhile (fun c => decide (c = 10#8) || decide (c = 13#8)) = l.reverse := by
    cases hr : l.reverse with
    | nil => rfl
    | cons c r =>
      have hl : l = r.reverse ++ [c] := by rw [← List.reverse_reverse l, hr, List.reverse_cons]
      rw [List.dropWhile_cons_of_neg]
      rw [hl, List.getLast?_concat] at h
      have h1 : c ≠ 13#8 := fun e => h (by rw [e])
      have h2 : c ≠ 10#8 := fun e => hn (by rw [hl, e]; simp)
      simp [h1, h2]
  constructor
  · unfold trimCrlf; rw [key, List.reverse_reverse]
  · unfold trimCrlf
    rw [List.reverse_append, List.reverse_singleton, List.singleton_append, List.dropWhile_cons_of_pos (by decide), key,
      List.reverse_reverse]

theorem fgets_line {n : Nat} {l acc r : List Byte} (hl : 10#8 ∉ l) (hn : acc.length + l.length < n) :
    fgetsAll n acc (l ++ 10#8 :: r) = (acc.reverse ++ l ++ [10#8]) :: fgetsAll n [] r := by
  induction l generalizing acc with
  | nil => rw [List.nil_append, fgetsAll, if_pos (Or.inl rfl)]; simp
  | cons c l ih =>
    simp only [List.length_cons] at hn
    rw [List.cons_append, fgetsAll, if_neg, ih (fun h => hl (List.mem_cons_of_mem _ h)) (by simp only [List.length_cons]; omega)]
    · simp
    · rintro (h | h)
      · exact hl (h ▸ List.mem_cons_self ..)
      · omega

theorem fgets_last {n : Nat} {l acc : List Byte} (hl : 10#8 ∉ l) (hn : acc.length + l.length < n) (hne : acc ++ l ≠ []) :
    fgetsAll n acc l = [acc.reverse ++ l] := by
  induction l generalizing acc with
  | nil => rw [fgetsAll, if_neg (by simpa using hne)]; simp
  | cons c l ih =>
    simp only [List.length_cons] at hn
    rw [fgetsAll, if_neg, ih (fun h => hl (List.mem_cons_of_mem _ h)) (by simp only [List.length_cons]; omega) (by simp)]
    · simp
    · rintro (h | h)
      · exact hl (h ▸ List.mem_cons_self ..)
      · omega

theorem fgets_full {n : Nat} {l acc r : List Byte} (hl : 10#8 ∉ l) (hn : acc.length + l.length = n) (hne : l ≠ []) :
    fgetsAll n acc (l ++ r) = (acc.reverse ++ l) :: fgetsAll n [] r := by
  induction l generalizing acc with
  | nil => exact absurd rfl hne
  | cons c l ih =>
    simp only [List.length_cons] at hn
    rw [List.cons_append, fgetsAll]
    by_cases h : l = []
    · subst h
      rw [if_pos (Or.inr (by simpa using hn))]; simp
    · have := List.length_pos_iff.mpr h
      rw [if_neg, ih (fun h => hl (List.mem_cons_of_mem _ h)) (by simp only [List.length_cons]; omega) h]
      · simp
      · rintro (h | h)
        · exact hl (h ▸ List.mem_cons_self ..)
        · omega

/-- C67: the lines of a text file are read one by one, without their ends, for all files with lines shorter than 65535
characters that do not end in a carriage return, whether or not the last line is ended.  Missing: longer lines
(`C67_violated_long`). -/
theorem C67_lines_partial {ls : List (List Byte)} {last : List Byte}
    (h : ∀ l ∈ last :: ls, 10#8 ∉ l ∧ 0#8 ∉ l ∧ l.getLast? ≠ some 13#8 ∧ l.length < 65535) :
    readFile ((ls.flatMap fun l => l ++ [10#8]) ++ last) = ls ++ if last = [] then [] else [last] := by
  unfold readFile
  induction ls with
  | nil =>
    obtain ⟨h1, h2, h3, h4⟩ := h last (by simp)
    split
    · rename_i e; subst e; rfl
    · rename_i e
      rw [List.flatMap_nil, List.nil_append, fgets_last h1 (by simpa using h4) (by simpa using e), List.nil_append]
      simp only [List.reverse_nil, List.nil_append, List.map_cons, List.map_nil, cstr_text h2, (trim_eq h3 h1).1]
  | cons l ls ih =>
    obtain ⟨h1, h2, h3, h4⟩ := h l (by simp)
    rw [List.flatMap_cons, List.append_assoc, List.append_assoc, List.singleton_append, fgets_line h1 (by simpa using h4),
      List.map_cons, ih fun x hx => h x (by
        rcases List.mem_cons.mp hx with rfl | hx
        · simp
        · simp [hx])]
    rw [List.reverse_nil, List.nil_append, cstr_text (by simp [h2]), (trim_eq h3 h1).2]
    rfl

end Target

section X86

attribute [local instance] x86Asm

/-- C67 is violated: a line of 65536 characters, an assembler string say, is read as two lines. -/
theorem C67_violated_long : readFile (List.replicate 65536 97#8 ++ [10#8]) = [List.replicate 65535 97#8, [97#8]] := by
  have e : List.replicate 65536 97#8 ++ [10#8] = List.replicate 65535 97#8 ++ [97#8, 10#8] := by
    rw [show (65536 : Nat) = 65535 + 1 from rfl, List.replicate_succ', List.append_assoc, List.singleton_append]
  have h10 : ∀ n, 10#8 ∉ List.replicate n (97#8 : Byte) := fun n h => by
    have := List.eq_of_mem_replicate h
    exact absurd this (by decide)
  unfold readFile
  rw [e, fgets_full (h10 _) (by rw [List.length_replicate, List.length_nil]) (by
    intro h; have := congrArg List.length h; rw [List.length_replicate, List.length_nil] at this; cases this)]
  rw [List.reverse_nil, List.nil_append, List.map_cons, cstr_text (fun h => by
    have := List.eq_of_mem_replicate h; exact absurd this (by decide)), (trim_eq (by
      intro h
      have := List.eq_of_mem_replicate (List.mem_of_getLast? h)
      exact absurd this (by decide)) (h10 _)).1]
  congr 1

/-! ### Concrete cases -/

set_option maxRecDepth 100000

/-- Options `-i b.s:g,f -i a.s:h`: of the file `a.s` the functions `f` and `h`. -/
def exListArgs : List (List Byte) := [lit "b.s:g,f", lit "a.s:h"]

def exListed : List SymDesc := [⟨some (lit "b.s"), lit "g"⟩, ⟨none, lit "f"⟩, ⟨some (lit "a.s"), lit "h"⟩]

theorem exSyms_eq : parseSymLists exListArgs = some exListed := by decide +kernel

example : InList exListArgs (lit "a.s") (lit "f") ∧ ¬ InList exListArgs (lit "a.s") (lit "g") ∧ InList exListArgs (lit "a.s") (lit "h") := by
  have ok : ∀ x : List Byte, (kpz x).Ok := fun x => kpz_ok x
  have k := fun x => C62_list_partial (file := lit "a.s") exSyms_eq (ok x)
  simp only [kpz_text] at k
  refine ⟨(k _).mp ?_, fun h => ?_, (k _).mp ?_⟩
  · decide +kernel
  · exact absurd ((k _).mpr h) (by decide +kernel)
  · decide +kernel

def exIgnore : GenOpts := { exOpts with ignoreSyms := exListed }

def exIgnoreOut : List Out := (gensrc exIgnore exOld exNew).get (by decide +kernel)

theorem exExcluded : Excluded exIgnore.conf exListArgs exL.f1.basename exF1.human.text :=
  (C62_excluded_partial (o := exIgnore) exSyms_eq (by unfold Kpstr.Ok; decide +kernel) (by decide +kernel) (by decide +kernel)
    (fun _ e => by cases e)).mp (by decide +kernel)

/-- The changed function `f` is ignored. -/
example : NotReplaced exIgnoreOut exF0 exF1 :=
  C62_not_replaced_partial (o := exIgnore) exText.1 exText.2 exL_eq exNamed (by simp [exIgnoreOut]) exSyms_eq (fun _ e => by cases e)
    (by decide +kernel) (by decide +kernel) (by decide +kernel) (by decide +kernel) (by decide +kernel) (by decide +kernel)
    (by decide +kernel) (by decide +kernel) exExcluded

/-- The file of functions names `g` only. -/
def exConf : GenOpts := { exOpts with conf := some (lit "g\n") }

theorem exShort : ∀ content, exConf.conf = some content → ShortLines 1023 content := by
  intro c e
  cases e
  refine ⟨by decide +kernel, fun l ⟨_, a, b, e, _⟩ => ?_⟩
  have := congrArg List.length e
  rw [show (lit "g\n").length = 2 from by decide +kernel] at this
  simp only [List.length_append] at this
  omega

example : Excluded exConf.conf [] exL.f1.basename exF1.human.text :=
  (C62_excluded_partial (o := exConf) (args := []) rfl (by unfold Kpstr.Ok; decide +kernel) (by decide +kernel) (by decide +kernel)
    exShort).mp (by decide +kernel)

/-- The function `f` has changed, whatever the correspondence of the other symbols is. -/
theorem exDiffers (P : Corresp) : ¬ SameBlocks exOpts exL P exF0 exF1 := by
  intro hs
  have hx : exMov ∈ exL.f0.lines exF0 := by decide +kernel
  obtain ⟨y, hy, hf⟩ := SameCode.statement0 hs (show exF0.ty = .func by decide +kernel) exMov hx
    ⟨by unfold Irrelevant; decide +kernel, by decide +kernel, by decide +kernel, by show exMov.sect.name ≠ _; decide +kernel⟩
  have hxt : HasToken exMov (lit "1") := by unfold HasToken; decide +kernel
  obtain ⟨k, hk, hkt⟩ := List.mem_map.1 hxt
  obtain ⟨m, hm, e⟩ := forall₂_left hf hk
  rw [hkt] at e
  have hall : ∀ y ∈ exL.f1.lines exF1, ¬ HasToken y (lit "1") := by unfold HasToken; decide +kernel
  exact hall y hy (List.mem_map.2 ⟨m, hm, (e.eq0 (by decide +kernel)).symm⟩)

/-- Only `g` is excluded: `f` is replaced. -/
example : ∃ out r, Replaced { exOpts with ignoreSyms := [⟨none, lit "g"⟩] } exL r out exF0 exF1 := by
  have hx : ∀ sym : Kpstr, sym.Ok → (inSyms exL.f1.basename sym [⟨none, lit "g"⟩] = true ↔ InList [lit "g"] exL.f1.basename sym.text) :=
    fun _ h => C62_list_partial (by decide +kernel) h
  refine ⟨(gensrc { exOpts with ignoreSyms := [⟨none, lit "g"⟩] } exOld exNew).get (by decide +kernel), ?_⟩
  refine C62_replaced_partial (o := { exOpts with ignoreSyms := [⟨none, lit "g"⟩] }) (args := [lit "g"]) (uargs := []) exText.1 exText.2
    exL_eq exNamed (by simp) (by decide +kernel) (fun _ e => by cases e) rfl (b0 := exF0) (b1 := exF1)
    (by decide +kernel) (by decide +kernel) (by decide +kernel) (by decide +kernel) (by decide +kernel) (by decide +kernel)
    ?_ (by rintro ⟨t, ht, _⟩; cases ht) fun P _ => exDiffers P
  rintro (⟨_, e, _⟩ | ⟨_, h⟩)
  · cases e
  · exact absurd ((hx _ (by unfold Kpstr.Ok; decide +kernel)).mpr h) (by decide +kernel)

def exUnlink : GenOpts := { exOpts with unlinkSyms := exListed }

def exUnlinkOut : List Out := (gensrc exUnlink exOld exNew).get (by decide +kernel)

/-- The function `f` is unlinked: its record has no target. -/
example : (∃ r, Added exUnlink exL r exUnlinkOut exF1) ∧ ∀ r ∈ recordsOf exUnlinkOut, r.target ≠ some exF0.name.text :=
  C62_unlinked_partial (o := exUnlink) exText.1 exText.2 exL_eq exNamed (by simp [exUnlinkOut]) exSyms_eq
    (by decide +kernel) (by decide +kernel) (by decide +kernel) (by decide +kernel) (by decide +kernel) (by decide +kernel)
    ((C62_list_partial exSyms_eq (by unfold Kpstr.Ok; decide +kernel)).mp (by decide +kernel))

example : recordsOf exUnlinkOut = [⟨1, lit "f", lit "f.kpatch", none⟩] := by decide +kernel

/-- `f` must be adapted, is not and has changed: the generator fails, unless the memory of the block says otherwise. -/
example : gensrc { exOpts with mustAdapt := exListed } exOld exNew = none := by decide +kernel

/-- Twice the same file: `C62_must_adapt_partial` applies. -/
def exAdapt : GenOpts := { exOpts with mustAdapt := exListed }

def exSameL : GSt := (loadBoth exOld exOld).get (by decide +kernel)

def exAdaptOut : List Out := (gensrc exAdapt exOld exOld).get (by decide +kernel)

example : NotReplaced exAdaptOut ((exSameL.f0.bs[0]?).get (by decide +kernel)) ((exSameL.f1.bs[0]?).get (by decide +kernel)) :=
  C62_must_adapt_partial (o := exAdapt) exText.1 exText.1 (L := exSameL) (by simp [exSameL]) (by unfold GFile.Named; decide +kernel)
    (by simp [exAdaptOut]) exSyms_eq
    (by decide +kernel) (by decide +kernel) (by decide +kernel) (by decide +kernel) (by decide +kernel) (by decide +kernel)
    (by decide +kernel) (by decide +kernel) rfl
    ((C62_list_partial exSyms_eq (by unfold Kpstr.Ok; decide +kernel)).mp (by decide +kernel))

/-- The lines of a file with an unfinished last line. -/
example : readFile (lit "\t.text\nf:\n\tret") = [lit "\t.text", lit "f:", lit "\tret"] := by decide +kernel

/-! ### Violations -/

/-- C62 is violated: the entry `a.c:foo` selects the function of the file `a.cpp` too. -/
theorem C62_violated_file : ∃ syms, parseSymLists [lit "a.c:foo"] = some syms ∧ inSyms (lit "a.cpp") (kpz (lit "foo")) syms = true :=
  ⟨[⟨some (lit "a.c"), lit "foo"⟩], by decide +kernel, by decide +kernel⟩

/-- C62 is violated: a list of 33 symbols is written past the end of the array. -/
theorem C62_violated_many : parseSymLists [(List.replicate 33 (lit "f,")).flatten] = none := by decide +kernel

/-- C62 is violated: the line `foobar` of the file selects the function `foo` too. -/
theorem C62_violated_prefix : ignoredSym { exOpts with conf := some (lit "foobar\n") } (lit "a.s") (kpz (lit "foo")) .func = false := by
  decide +kernel

/-- C62 is violated: `f` must be adapted and is not, but is replaced, since the field that says so is not initialised. -/
theorem C62_violated_adapted : ∃ out, gensrc { exOpts with mustAdapt := [⟨none, lit "f"⟩], uninit := fun _ => true } exOld exNew = some out ∧
    exF1.adapted ≠ some true ∧ recordsOf out = [⟨1, lit "f", lit "f.kpatch", some (lit "f")⟩] :=
  ⟨(gensrc { exOpts with mustAdapt := [⟨none, lit "f"⟩], uninit := fun _ => true } exOld exNew).getD [], by decide +kernel⟩

end X86

end Verif
