import Verif.Model.Files
/-
C67: lines of assembler files, the table of lines.  C93: directories of intermediate files.
-/
namespace Verif

/-- What the table holds before the line number `old.length + 1`. -/
def TabHolds (sz : Nat) (tab : Option (List (List Byte))) (old : List (List Byte)) : Prop :=
  match tab with
  | none => old = []
  | some t => t.length = sz ∧ ∀ i, i < old.length → t[i + 1]? = old[i]?

theorem grown_spec (junk : List (List Byte)) (sz : Nat) (tab : Option (List (List Byte))) (old : List (List Byte)) (h0 : 0 < sz)
    (hsz : old.length + 1 ≤ sz) (ht : TabHolds sz tab old) :
    ∃ sz' t, (if old.length + 1 ≥ sz ∨ tab = none then (2 * sz, kpRealloc junk tab sz (2 * sz)) else (sz, tab)) = (sz', some t) ∧
      t.length = sz' ∧ old.length + 2 ≤ sz' ∧ ∀ i, i < old.length → t[i + 1]? = old[i]? := by
  cases tab with
  | none =>
    have ho : old = [] := ht
    subst ho
    have hlen : ((junk ++ List.replicate (2 * sz) []).take (2 * sz)).length = 2 * sz := by
      simp only [List.length_take, List.length_append, List.length_replicate]; omega
    exact ⟨2 * sz, _, by simp only [or_true, if_true, kpRealloc], hlen, by simp only [List.length_nil] at *; omega,
      fun i hi => absurd hi (by simp)⟩
  | some t =>
    obtain ⟨hl, hg⟩ := ht
    by_cases hc : old.length + 1 ≥ sz
    · refine ⟨2 * sz, t.take sz ++ ((junk ++ List.replicate (2 * sz) []).take (2 * sz)).drop sz, ?_, ?_, by omega, fun i hi => ?_⟩
      · have h1 : ¬ sz > 2 * sz := by omega
        have h2 : sz ≤ t.length := by omega
        simp only [hc, true_or, if_true, kpRealloc, h1, if_false, h2]
      · simp only [List.length_take, List.length_append, List.length_replicate, List.length_drop]; omega
      · rw [List.getElem?_append_left (by simp only [List.length_take]; omega), List.getElem?_take_of_lt (by omega)]
        exact hg i hi
    · exact ⟨sz, t, by simp only [hc, reduceCtorEq, or_false, if_false], hl, by omega, hg⟩

theorem fillTable_spec (junk : Nat → List (List Byte)) : ∀ (ls : List (List Byte)) (sz : Nat) (tab : Option (List (List Byte)))
    (old : List (List Byte)), 0 < sz → old.length + 1 ≤ sz → TabHolds sz tab old →
    ∃ t, fillTable junk sz tab (old.length + 1) ls = some (t, old.length + 1 + ls.length) ∧ t[0]? = some [] ∧
      ∀ i, i < (old ++ ls).length → t[i + 1]? = (old ++ ls)[i]? := by
  intro ls
  induction ls with
  | nil =>
    intro sz tab old h0 hsz ht
    obtain ⟨sz', t, e, hl, hle, hg⟩ := grown_spec (junk (old.length + 1)) sz tab old h0 hsz ht
    rw [fillTable]
    simp only [e]
    rw [if_pos (by omega)]
    refine ⟨_, rfl, List.getElem?_set_self (by omega), fun i hi => ?_⟩
    simp only [List.append_nil] at hi ⊢
    rw [List.getElem?_set_ne (by omega)]
    exact hg i hi
  | cons l ls ih =>
    intro sz tab old h0 hsz ht
    obtain ⟨sz', t, e, hl, hle, hg⟩ := grown_spec (junk (old.length + 1)) sz tab old h0 hsz ht
    rw [fillTable]
    simp only [e]
    rw [if_pos (by omega)]
    have hnext := ih sz' (some (t.set (old.length + 1) l)) (old ++ [l]) (by omega)
      (by simp only [List.length_append, List.length_cons, List.length_nil]; omega)
      ⟨by simp only [List.length_set]; exact hl, fun i hi => ?_⟩
    · obtain ⟨t', h1, h2, h4⟩ := hnext
      simp only [List.length_append, List.length_cons, List.length_nil, List.append_assoc, List.singleton_append] at h1 h4
      refine ⟨t', ?_, h2, ?_⟩
      · have e2 : old.length + 1 + (l :: ls).length = old.length + (0 + 1) + 1 + ls.length := by
          simp only [List.length_cons]; omega
        rw [e2]
        exact h1
      · intro i hi
        exact h4 i (by simp only [List.length_append, List.length_cons] at hi; omega)
    · simp only [List.length_append, List.length_cons, List.length_nil] at hi
      by_cases hi' : i = old.length
      · subst hi'
        rw [List.getElem?_set_self (by omega)]
        simp
      · rw [List.getElem?_set_ne (by omega), List.getElem?_append_left (by omega)]
        exact hg i (by omega)

/-- Whatever the number of lines and the content of fresh memory, line number `i + 1` of the table is line `i` of the file,
line 0 is empty, and no write goes past the table. -/
theorem C67_table (junk : Nat → List (List Byte)) (content : List Byte) :
    ∃ t, lineTable junk content = some (t, (readFile content).length + 1) ∧ t[0]? = some [] ∧
      ∀ i, i < (readFile content).length → t[i + 1]? = (readFile content)[i]? := by
  obtain ⟨t, h1, h2, h4⟩ := fillTable_spec junk (readFile content) 64 none [] (by omega) (by simp) rfl
  refine ⟨t, ?_, h2, by simpa using h4⟩
  rw [lineTable, Nat.add_comm]
  simpa using h1


/-- The directories on the way to a path: what precedes a slash, but for the root. -/
def OnTheWay (path d : CStr) : Prop := d ≠ [] ∧ ∃ rest, path = d ++ 47#8 :: rest

theorem mkdirTry_spec {deny : CStr → Bool} {fs fs' : CStr → FsKind} {p : CStr} (h : mkdirTry deny fs p = some fs') :
    fs' p ≠ .absent ∧ ∀ q, (fs q ≠ .absent → fs' q = fs q) ∧ (fs' q ≠ fs q → q = p ∧ fs' q = .dir) := by
  unfold mkdirTry at h
  by_cases h1 : fs p ≠ .absent
  · rw [if_pos h1] at h
    cases h
    exact ⟨h1, fun q => ⟨fun _ => rfl, fun h => absurd rfl h⟩⟩
  rw [if_neg h1] at h
  rw [Decidable.not_not] at h1
  cases hd : deny p with
  | true => simp [hd] at h
  | false =>
    simp only [hd, Bool.false_eq_true, if_false] at h
    split at h
    · cases h
      refine ⟨by simp, fun q => ⟨fun hq => ?_, fun hq => ?_⟩⟩
      · by_cases e : q = p
        · rw [e, h1] at hq
          exact absurd rfl hq
        · simp [e]
      · by_cases e : q = p
        · exact ⟨e, by simp [e]⟩
        · simp [e] at hq
    · exact absurd h (by simp)

theorem makeDirsGo_spec {deny : CStr → Bool} : ∀ (rest : CStr) (fs fs' : CStr → FsKind) (done : CStr), done ≠ [] ∨ rest = [] →
    makeDirsGo deny fs done rest = some fs' →
    (∀ a b, rest = a ++ 47#8 :: b → fs' (done ++ a) ≠ .absent) ∧
    (∀ q, fs q ≠ .absent → fs' q = fs q) ∧
    (∀ q, fs' q ≠ fs q → fs' q = .dir ∧ ∃ a b, rest = a ++ 47#8 :: b ∧ q = done ++ a) := by
  intro rest
  induction rest with
  | nil =>
    intro fs fs' done _ h
    rw [makeDirsGo] at h
    cases h
    exact ⟨fun a b e => by simp at e, fun _ _ => rfl, fun q h => absurd rfl h⟩
  | cons c rest ih =>
    intro fs fs' done hd h
    rw [makeDirsGo] at h
    by_cases hc : c = 47#8
    · rw [if_pos hc] at h
      cases hm : mkdirTry deny fs done with
      | none => simp [hm] at h
      | some fs1 =>
        simp only [hm] at h
        obtain ⟨m1, m2⟩ := mkdirTry_spec hm
        obtain ⟨i1, i2, i3⟩ := ih fs1 fs' (done ++ [c]) (Or.inl (by simp)) h
        refine ⟨fun a b e => ?_, fun q hq => ?_, fun q hq => ?_⟩
        · cases a with
          | nil =>
            rw [List.append_nil, i2 done m1]
            exact m1
          | cons x a =>
            simp only [List.cons_append, List.cons.injEq] at e
            have := i1 a b e.2
            rw [← e.1]
            simpa using this
        · have := (m2 q).1 hq
          rw [i2 q (by rw [this]; exact hq), this]
        · by_cases h1 : fs' q = fs1 q
          · rw [h1] at hq ⊢
            obtain ⟨e1, e2⟩ := (m2 q).2 hq
            exact ⟨e2, [], rest, by rw [hc]; rfl, by rw [e1, List.append_nil]⟩
          · obtain ⟨e1, a, b, e2, e3⟩ := i3 q h1
            exact ⟨e1, c :: a, b, by rw [e2]; rfl, by rw [e3]; simp⟩
    · rw [if_neg hc] at h
      obtain ⟨i1, i2, i3⟩ := ih fs fs' (done ++ [c]) (Or.inl (by simp)) h
      refine ⟨fun a b e => ?_, i2, fun q hq => ?_⟩
      · cases a with
        | nil =>
          simp only [List.nil_append, List.cons.injEq] at e
          exact absurd e.1 hc
        | cons x a =>
          simp only [List.cons_append, List.cons.injEq] at e
          have := i1 a b e.2
          rw [← e.1]
          simpa using this
      · obtain ⟨e1, a, b, e2, e3⟩ := i3 q hq
        exact ⟨e1, c :: a, b, by rw [e2]; rfl, by rw [e3]; simp⟩

/-- When make_dirs returns, everything on the way to the path exists; what existed is unchanged; what is new is a
directory on the way. -/
theorem C93_directories (deny : CStr → Bool) (fs fs' : CStr → FsKind) (path : CStr) (h : makeDirs deny fs path = some fs') :
    (∀ d, OnTheWay path d → fs' d ≠ .absent) ∧ (∀ q, fs q ≠ .absent → fs' q = fs q) ∧
    (∀ q, fs' q ≠ fs q → fs' q = .dir ∧ OnTheWay path q) := by
  unfold makeDirs at h
  cases path with
  | nil =>
    simp only [List.take_nil, List.drop_nil, makeDirsGo] at h
    cases h
    refine ⟨?_, fun _ _ => rfl, fun q hq => absurd rfl hq⟩
    rintro d ⟨_, rest, e⟩
    simp at e
  | cons c path =>
    simp only [List.take_succ_cons, List.take_zero, List.drop_succ_cons, List.drop_zero] at h
    obtain ⟨h1, h2, h3⟩ := makeDirsGo_spec path fs fs' [c] (Or.inl (by simp)) h
    refine ⟨?_, h2, fun q hq => ?_⟩
    · rintro d ⟨hne, rest, e⟩
      cases d with
      | nil => exact absurd rfl hne
      | cons x d =>
        simp only [List.cons_append, List.cons.injEq] at e
        rw [← e.1]
        exact h1 d rest e.2
    · obtain ⟨e1, a, b, e2, e3⟩ := h3 q hq
      refine ⟨e1, by rw [e3]; simp, b, ?_⟩
      rw [e3, e2]
      rfl

theorem pathParent_cons {d e : CStr} (he : 47#8 ∉ e) (hne : d ≠ []) : pathParent (d ++ 47#8 :: e) = some d := by
  unfold pathParent
  have h1 : ((d ++ 47#8 :: e).reverse.dropWhile (· ≠ 47#8)) = 47#8 :: d.reverse := by
    rw [List.reverse_append, List.reverse_cons, List.append_assoc, List.dropWhile_append_of_pos]
    · simp
    · intro x hx
      have : x ∈ e := by simpa using hx
      simp only [ne_eq, decide_not, Bool.not_eq_eq_eq_not, Bool.not_true, decide_eq_false_iff_not]
      rintro rfl
      exact he this
  simp only [h1, List.drop_succ_cons, List.drop_zero, List.reverse_reverse]
  rw [if_pos ⟨by simp, by simpa using hne⟩]

theorem pathParent_none {e : CStr} (he : 47#8 ∉ e.drop 1) : pathParent e = none := by
  unfold pathParent
  by_cases h : 47#8 ∈ e
  · cases e with
    | nil => simp at h
    | cons c e =>
      simp only [List.drop_succ_cons, List.drop_zero] at he
      have hc : c = 47#8 := by
        rcases List.mem_cons.1 h with h | h
        · exact h.symm
        · exact absurd h he
      have : (((c :: e).reverse.dropWhile (· ≠ 47#8)).drop 1) = [] := by
        rw [hc, List.reverse_cons, List.dropWhile_append_of_pos]
        · simp
        · intro x hx
          have : x ∈ e := by simpa using hx
          simp only [ne_eq, decide_not, Bool.not_eq_eq_eq_not, Bool.not_true, decide_eq_false_iff_not]
          rintro rfl
          exact he this
      simp only [this, ne_eq, not_true_eq_false, and_false, if_false]
  · simp [h]

/-- The part of a path before its last slash, for a path that has one after its first character. -/
theorem splitSlash : ∀ (d : CStr), 47#8 ∈ d → ∃ a e, d = a ++ 47#8 :: e ∧ 47#8 ∉ e := by
  intro d
  induction d with
  | nil => intro h; exact absurd h List.not_mem_nil
  | cons c d ih =>
    intro h
    by_cases hd : 47#8 ∈ d
    · obtain ⟨a, e, h1, h2⟩ := ih hd
      exact ⟨c :: a, e, by rw [h1]; rfl, h2⟩
    · rcases List.mem_cons.1 h with h | h
      · exact ⟨[], d, by rw [← h]; rfl, hd⟩
      · exact absurd h hd

theorem makeDirsGo_ok {deny : CStr → Bool} : ∀ (rest : CStr) (fs : CStr → FsKind) (done : CStr), done ≠ [] →
    (∀ d, OnTheWay done d → fs d = .dir) →
    (∀ d, OnTheWay (done ++ rest) d → fs d ≠ .file ∧ deny d = false) →
    ∃ fs', makeDirsGo deny fs done rest = some fs' := by
  intro rest
  induction rest with
  | nil => exact fun fs done _ _ _ => ⟨fs, by rw [makeDirsGo]⟩
  | cons c rest ih =>
    intro fs done hne hdir hok
    rw [makeDirsGo]
    by_cases hc : c = 47#8
    · rw [if_pos hc]
      have hway : OnTheWay (done ++ c :: rest) done := ⟨hne, rest, by rw [hc]⟩
      obtain ⟨hf, hdeny⟩ := hok done hway
      have hm : ∃ fs1, mkdirTry deny fs done = some fs1 ∧ fs1 done = .dir ∧ ∀ q, q ≠ done → fs1 q = fs q := by
        unfold mkdirTry
        by_cases h1 : fs done ≠ .absent
        · rw [if_pos h1]
          refine ⟨fs, rfl, ?_, fun _ _ => rfl⟩
          cases hk : fs done with
          | absent => exact absurd hk h1
          | file => exact absurd hk hf
          | dir => rfl
        · rw [if_neg h1, hdeny]
          simp only [Bool.false_eq_true, if_false]
          have hp : (pathParent done).all (fs · == .dir) = true := by
            by_cases hs : 47#8 ∈ done.drop 1
            · obtain ⟨a, e, h2, h3⟩ := splitSlash _ hs
              have he : done = (done.take 1 ++ a) ++ 47#8 :: e := by
                rw [List.append_assoc, ← h2, List.take_append_drop]
              have hne' : done.take 1 ++ a ≠ [] := by
                cases done with
                | nil => exact absurd rfl hne
                | cons x y => simp
              rw [he, pathParent_cons h3 hne']
              simpa using hdir _ ⟨hne', e, he⟩
            · rw [pathParent_none hs]; rfl
          rw [if_pos hp]
          exact ⟨_, rfl, by simp, fun q hq => by simp [hq]⟩
      obtain ⟨fs1, hm, hd1, hq1⟩ := hm
      simp only [hm]
      refine ih fs1 (done ++ [c]) (by simp) ?_ ?_
      · rintro d ⟨hd, r, e⟩
        by_cases hdd : d = done
        · rw [hdd]; exact hd1
        · rw [hq1 d hdd]
          refine hdir d ⟨hd, ?_⟩
          rcases List.eq_nil_or_concat r with rfl | ⟨r', x, rfl⟩
          · have := List.append_inj' e rfl
            exact absurd this.1.symm hdd
          · refine ⟨r', ?_⟩
            have e' : done ++ [c] = (d ++ 47#8 :: r') ++ [x] := by simpa using e
            exact (List.append_inj' e' rfl).1
      · intro d hd
        have := hok d (by simpa using hd)
        refine ⟨?_, this.2⟩
        by_cases hdd : d = done
        · rw [hdd, hd1]; simp
        · rw [hq1 d hdd]; exact this.1
    · rw [if_neg hc]
      refine ih fs (done ++ [c]) (by simp) ?_ (by simpa using hok)
      rintro d ⟨hd, r, e⟩
      refine hdir d ⟨hd, ?_⟩
      rcases List.eq_nil_or_concat r with rfl | ⟨r', x, rfl⟩
      · have := List.append_inj' e rfl
        simp only [List.cons.injEq, and_true] at this
        exact absurd this.2 hc
      · refine ⟨r', ?_⟩
        have e' : done ++ [c] = (d ++ 47#8 :: r') ++ [x] := by simpa using e
        exact (List.append_inj' e' rfl).1

/-- make_dirs returns when nothing on the way is a file and the kernel denies none of the directories. -/
theorem C93_returns (deny : CStr → Bool) (fs : CStr → FsKind) (path : CStr)
    (h : ∀ d, OnTheWay path d → fs d ≠ .file ∧ deny d = false) : ∃ fs', makeDirs deny fs path = some fs' := by
  unfold makeDirs
  cases path with
  | nil => exact ⟨fs, rfl⟩
  | cons c path =>
    simp only [List.take_succ_cons, List.take_zero, List.drop_succ_cons, List.drop_zero]
    refine makeDirsGo_ok path fs [c] (by simp) ?_ (by simpa using h)
    rintro d ⟨hd, r, e⟩
    cases d with
    | nil => exact absurd rfl hd
    | cons x d =>
      have := congrArg List.length e
      simp at this

/-- `/tmp` exists; the directories of `/tmp/a/b/x.s` are created. -/
def exFs : CStr → FsKind := fun p => if p = lit "/tmp" then .dir else .absent

example : ∃ fs', makeDirs (fun _ => false) exFs (lit "/tmp/a/b/x.s") = some fs' ∧ fs' (lit "/tmp/a") = .dir ∧
    fs' (lit "/tmp/a/b") = .dir ∧ fs' (lit "/tmp/a/b/x.s") = .absent := by
  refine ⟨((makeDirs (fun _ => false) exFs (lit "/tmp/a/b/x.s")).get (by decide +kernel)), (Option.some_get _).symm, ?_, ?_, ?_⟩ <;>
    decide +kernel

/-- A table that grows: more lines than its first 128 entries. -/
example : ∃ t, fillTable (fun _ => []) 2 none 1 [[1#8], [2#8], [3#8], [4#8], [5#8]] = some (t, 6) ∧ t.length = 8 ∧ t[5]? = some [5#8] := by
  refine ⟨[[], [1#8], [2#8], [3#8], [4#8], [5#8], [], []], by decide +kernel, by decide, by decide⟩

end Verif
