import Verif.Spec.Buffers
import Verif.Props.Rename
/-
C102: names and texts are assembled within the arrays that are set aside for them.
-/
namespace Verif

/-! ### Writing -/

theorem putAt_out {m : CMem} {a : Nat} {bs : List Byte} {x : Nat} (h : x < a ∨ a + bs.length ≤ x) : putAt m a bs x = m x := by
  unfold putAt
  split
  · rfl
  · rw [List.getElem?_eq_none (by omega), Option.getD_none]

theorem putAt_in {m : CMem} {a : Nat} {bs : List Byte} {i : Nat} (h : i < bs.length) : putAt m a bs (a + i) = bs.getD i 0#8 := by
  unfold putAt
  rw [if_neg (by omega), Nat.add_sub_cancel_left, List.getD_eq_getElem?_getD, List.getElem?_eq_getElem h]
  rfl

theorem onlyIn_put {m : CMem} {a size b : Nat} {bs : List Byte} (h1 : a ≤ b) (h2 : b + bs.length ≤ a + size) :
    OnlyIn m (putAt m b bs) a size := fun _ hx => putAt_out (by omega)

theorem OnlyIn.then {m m' m'' : CMem} {a size : Nat} (h : OnlyIn m m' a size) (h' : OnlyIn m' m'' a size) : OnlyIn m m'' a size :=
  fun x hx => (h' x hx).trans (h x hx)

theorem onlyIn_strcpy {m : CMem} {a size b : Nat} {s : List Byte} (h1 : a ≤ b) (h2 : b + (s.length + 1) ≤ a + size) :
    OnlyIn m (strcpyAt m b s) a size := onlyIn_put h1 (by simpa using h2)

theorem onlyIn_strncpy {m : CMem} {a size b n : Nat} {s : List Byte} (h1 : a ≤ b) (h2 : b + n ≤ a + size) :
    OnlyIn m (strncpyAt m b s n) a size := onlyIn_put h1 (by simp; omega)

theorem text_strcpy (m : CMem) (a : Nat) (s : List Byte) : TextAt (strcpyAt m a s) a s :=
  fun i hi => putAt_in (by simp; omega)

/-- Writing `q` over the end of `p`. -/
theorem text_over {m : CMem} {a k : Nat} {p q : List Byte} (hk : k ≤ p.length) (hp : TextAt m a p ∨ ∀ i, i < k → m (a + i) = p.getD i 0#8) :
    TextAt (strcpyAt m (a + k) q) a (p.take k ++ q) := by
  intro i hi
  have hl : (p.take k).length = k := by simp; omega
  simp only [List.length_append, hl] at hi
  by_cases h : i < k
  · rw [strcpyAt, putAt_out (by omega)]
    have : m (a + i) = p.getD i 0#8 := by
      rcases hp with hp | hp
      · rw [hp i (by omega), List.getD_eq_getElem?_getD, List.getD_eq_getElem?_getD, List.getElem?_append_left (by omega)]
      · exact hp i h
    rw [this, List.getD_eq_getElem?_getD, List.getD_eq_getElem?_getD, List.append_assoc, List.getElem?_append_left (by omega),
      List.getElem?_take_of_lt h]
  · obtain ⟨j, rfl⟩ : ∃ j, i = k + j := ⟨i - k, by omega⟩
    rw [strcpyAt, ← Nat.add_assoc, putAt_in (by simp; omega), List.getD_eq_getElem?_getD, List.getD_eq_getElem?_getD,
      List.append_assoc, List.getElem?_append_right (l₁ := p.take k) (by omega), hl, Nat.add_sub_cancel_left]

theorem strncpy_get {m : CMem} {a n i : Nat} {s : List Byte} (hi : i < n) :
    strncpyAt m a s n (a + i) = s.getD i 0#8 := by
  rw [strncpyAt, putAt_in (by simp; omega), List.getD_eq_getElem?_getD, List.getD_eq_getElem?_getD]
  by_cases h : i < s.length
  · rw [List.getElem?_append_left (by simp; omega), List.getElem?_take_of_lt hi]
  · rw [List.getElem?_append_right (by simp; omega), List.getElem?_eq_none (i := i) (by omega), List.getElem?_replicate]
    split <;> rfl

theorem text_strncpy {m : CMem} {a n : Nat} {s : List Byte} (h : s.length < n) : TextAt (strncpyAt m a s n) a s := by
  intro i hi
  rw [strncpy_get (by omega), List.getD_eq_getElem?_getD, List.getD_eq_getElem?_getD]
  by_cases h' : i < s.length
  · rw [List.getElem?_append_left h']
  · obtain rfl : i = s.length := by omega
    simp

/-! ### The storage -/

/-- C102.  For every build id of at most 40 characters the name of the patch file in the storage, in either form, is written
within the 96 bytes for it, and is there in full; and the id is kept within the 41 bytes of a record. -/
theorem C102_storage_name (m : CMem) (a : Nat) (latest : Bool) (buildid : List Byte) (h : buildid.length ≤ 40) :
    OnlyIn m (storageNameAt m a latest buildid) a 96 ∧
    TextAt (storageNameAt m a latest buildid) a (buildid ++ if latest then lit "/latest/kpatch.bin" else lit ".kpatch") ∧
    OnlyIn m (cacheIdAt m a buildid) a 41 ∧ TextAt (cacheIdAt m a buildid) a buildid := by
  have h1 : (lit "/latest/kpatch.bin").length = 18 := by decide +kernel
  have h2 : (lit ".kpatch").length = 7 := by decide +kernel
  refine ⟨onlyIn_strcpy (Nat.le_refl _) ?_, text_strcpy _ _ _, onlyIn_strcpy (Nat.le_refl _) (by omega), text_strcpy _ _ _⟩
  cases latest <;> simp [h1, h2] <;> omega

example : (lit "0123456789abcdef0123456789abcdef01234567").length ≤ 40 := by decide +kernel

/-- C102.  The id of a single patch file, whatever bytes the file has there, is kept within the 41 bytes for it, as a string of
its first 40 characters. -/
theorem C102_single_id (m : CMem) (a : Nat) (id : List Byte) :
    OnlyIn m (singleIdAt m a id) a 41 ∧ TextAt (singleIdAt m a id) a (id.take 40) ∧ singleIdAt m a id (a + 40) = 0#8 := by
  refine ⟨(onlyIn_strncpy (Nat.le_refl _) (by omega)).then (onlyIn_put (by omega) (by simp)), ?_, ?_⟩
  · intro i hi
    simp only [List.length_take] at hi
    by_cases h : i < 40
    · rw [singleIdAt, putAt_out (by simp; omega), strncpy_get h, List.getD_eq_getElem?_getD, List.getD_eq_getElem?_getD]
      by_cases h' : i < id.length
      · rw [List.getElem?_append_left (by simp; omega), List.getElem?_take_of_lt h]
      · rw [List.getElem?_append_right (by simp; omega), List.getElem?_eq_none (by omega)]
        simp only [List.length_take]
        rw [show i - min 40 id.length = 0 by omega]
        rfl
    · obtain rfl : i = 40 := by omega
      rw [singleIdAt, show a + 40 = a + 40 + 0 from rfl, putAt_in (by simp), List.getD_eq_getElem?_getD, List.getD_eq_getElem?_getD,
        List.getElem?_append_right (by simp; omega)]
      simp only [List.length_take]
      rw [show 40 - min 40 id.length = 0 by omega]
  · rw [singleIdAt, show a + 40 = a + 40 + 0 from rfl, putAt_in (by simp)]; rfl

theorem hexBytes_length : ∀ bs : List Byte, (hexBytes bs).length = 2 * bs.length
  | [] => rfl
  | _ :: bs => by simp [hexBytes, hexBytes_length bs]; omega

theorem hexIdAt_spec (a : Nat) : ∀ (bs : List Byte) (m : CMem) (i : Nat),
    OnlyIn m (hexIdAt m a i bs) (a + i) (2 * bs.length + 1) ∧ (bs ≠ [] → TextAt (hexIdAt m a i bs) (a + i) (hexBytes bs))
  | [], m, i => ⟨fun _ _ => rfl, fun h => absurd rfl h⟩
  | b :: bs, m, i => by
    have hs : TextAt (strcpyAt m (a + i) [hexDigit (b.toNat / 16), hexDigit (b.toNat % 16)]) (a + i)
      [hexDigit (b.toNat / 16), hexDigit (b.toNat % 16)] := text_strcpy _ _ _
    have ho : OnlyIn m (strcpyAt m (a + i) [hexDigit (b.toNat / 16), hexDigit (b.toNat % 16)]) (a + i) (2 * (b :: bs).length + 1) :=
      onlyIn_strcpy (Nat.le_refl _) (by simp; omega)
    obtain ⟨h1, h2⟩ := hexIdAt_spec a bs (strcpyAt m (a + i) [hexDigit (b.toNat / 16), hexDigit (b.toNat % 16)]) (i + 2)
    simp only [hexIdAt]
    refine ⟨ho.then fun x hx => h1 x (by simp at hx; omega), fun _ => ?_⟩
    cases bs with
    | nil => exact hs
    | cons c cs =>
      intro j hj
      have hl := hexBytes_length (c :: cs)
      simp only [hexBytes, List.length_cons] at hj hl
      by_cases hlt : j < 2
      · rw [h1 _ (by omega), hs j (by simp; omega)]
        have : j = 0 ∨ j = 1 := by omega
        rcases this with rfl | rfl <;> rfl
      · obtain ⟨k, rfl⟩ : ∃ k, j = k + 2 := ⟨j - 2, by omega⟩
        rw [show a + i + (k + 2) = a + (i + 2) + k by omega, h2 (by simp) k (by simp only [hexBytes, List.length_cons]; omega)]
        rfl

/-- C102.  The build id of an object, whatever its 20 bytes are, is written as 40 characters within the 41 bytes for it. -/
theorem C102_object_id (m : CMem) (a : Nat) (id : List Byte) (h : id.length = 20) :
    OnlyIn m (hexIdAt m a 0 id) a 41 ∧ TextAt (hexIdAt m a 0 id) a (hexBytes id) ∧ (hexBytes id).length = 40 := by
  have := hexIdAt_spec a id m 0
  rw [h] at this
  exact ⟨this.1, this.2 (by intro e; simp [e] at h), by rw [hexBytes_length, h]⟩

example : (hexBytes (List.replicate 20 0xa7#8)).take 4 = lit "a7a7" := by decide +kernel

/-- C102.  The number of a process, whatever `int` it is, is written within the 16 bytes for it. -/
theorem C102_pid (m : CMem) (a : Nat) (pid : Int) (h : -2 ^ 31 ≤ pid ∧ pid < 2 ^ 31) :
    OnlyIn m (pidTextAt m a pid) a 16 ∧ TextAt (pidTextAt m a pid) a (intText pid) := by
  refine ⟨onlyIn_strcpy (Nat.le_refl _) ?_, text_strcpy _ _ _⟩
  have : (decText pid.natAbs).length ≤ 10 := by
    rw [decText, List.length_map, Nat.length_toDigits_le_iff (by decide) (by decide)]
    omega
  unfold intText
  split
  · simp only [List.length_cons]; omega
  · omega

example : intText (-2 ^ 31) = lit "-2147483648" := by decide +kernel

/-- C102 except for long paths.  The name of a script of the storage is written within the `PATH_MAX` bytes for it, in full, if
the path of the storage, the name and the slash are shorter.  Missing: paths that are as long, for which it is violated. -/
theorem C102_script_partial (m : CMem) (a : Nat) (path name : List Byte) (h : path.length + 1 + name.length < pathMax) :
    OnlyIn m (scriptPathAt m a path name) a pathMax ∧ TextAt (scriptPathAt m a path name) a (path ++ [47#8] ++ name) :=
  ⟨onlyIn_strcpy (Nat.le_refl _) (by simp; omega), text_strcpy _ _ _⟩

example : (lit "/var/lib/libcare").length + 1 + (lit "before").length < pathMax := by decide +kernel

theorem strcpy_past {m : CMem} {a k : Nat} {s : List Byte} (h : k < s.length) : strcpyAt m a s (a + k) = s.getD k 0#8 := by
  rw [strcpyAt, putAt_in (by simp; omega), List.getD_eq_getElem?_getD, List.getD_eq_getElem?_getD, List.getElem?_append_left h]

theorem long_text (n : Nat) (c : Byte) (h : c ≠ 0#8) :
    ∃ s : List Byte, s.length = n ∧ s.takeWhile (· != 0) = s ∧ ∀ d ∈ s, d = c :=
  ⟨List.replicate n c, List.length_replicate, by rw [List.takeWhile_replicate, if_pos (by simpa using h)],
    fun _ => List.eq_of_mem_replicate⟩

/-- C102 is violated by the scripts of the storage: for a path that the system accepts, shorter than `PATH_MAX` and naming the
root directory by slashes, the name of the script is written past the end of its array. -/
theorem C102_violated_script :
    ∃ path : List Byte, path.length < pathMax ∧ (∀ c ∈ path, c = 47#8) ∧ ∀ a,
      ∃ m, ¬ OnlyIn m (scriptPathAt m a path (lit "before")) a pathMax := by
  obtain ⟨path, hr, -, hc⟩ := long_text 4095 47#8 (by decide)
  refine ⟨path, by unfold pathMax; omega, hc, fun a => ⟨fun _ => 0#8, fun h => ?_⟩⟩
  have h1 := h (a + 4096) (Or.inr (Nat.le_refl _))
  have hl : (lit "before") = [0x62#8, 0x65#8, 0x66#8, 0x6f#8, 0x72#8, 0x65#8] := by decide +kernel
  have hlen : (path ++ [47#8]).length = 4096 := by simp [hr]
  rw [scriptPathAt, hl, strcpy_past (by rw [List.length_append, hlen]; simp), List.getD_eq_getElem?_getD,
    List.getElem?_append_right (Nat.le_of_eq hlen), hlen, Nat.sub_self] at h1
  exact absurd h1 (by simp)

/-! ### The server -/

/-- C102.  The command `storage` with any argument writes within the `PATH_MAX` bytes of the server's variable, and leaves there
the argument, if it is shorter than that, or its first `PATH_MAX - 1` bytes, as a string, if the last byte of the variable was
NUL. -/
theorem C102_storage_command (m : CMem) (a : Nat) (arg : List Byte) (h : m (a + (pathMax - 1)) = 0#8) :
    OnlyIn m (storageCmdAt m a arg) a pathMax ∧ TextAt (storageCmdAt m a arg) a (arg.take (pathMax - 1)) ∧
    storageCmdAt m a arg (a + (pathMax - 1)) = 0#8 := by
  have hz : storageCmdAt m a arg (a + (pathMax - 1)) = 0#8 := by
    rw [storageCmdAt, strncpyAt, putAt_out (by simp; omega), h]
  refine ⟨onlyIn_strncpy (Nat.le_refl _) (by omega), fun i hi => ?_, hz⟩
  simp only [List.length_take] at hi
  by_cases hlt : i < pathMax - 1
  · rw [storageCmdAt, strncpy_get hlt, List.getD_eq_getElem?_getD, List.getD_eq_getElem?_getD]
    by_cases h' : i < arg.length
    · rw [List.getElem?_append_left (by simp; omega), List.getElem?_take_of_lt hlt]
    · rw [List.getElem?_append_right (by simp; omega), List.getElem?_eq_none (by omega)]
      simp only [List.length_take]
      rw [show i - min (pathMax - 1) arg.length = 0 by omega]
      rfl
  · obtain rfl : i = pathMax - 1 := by omega
    rw [hz, List.getD_eq_getElem?_getD, List.getElem?_append_right (by simp; omega)]
    simp only [List.length_take]
    rw [show pathMax - 1 - min (pathMax - 1) arg.length = 0 by omega]
    rfl

example : (fun _ => 0#8 : CMem) (1000 + (pathMax - 1)) = 0#8 := rfl

/-- C102 except for long arguments: missing are arguments of `PATH_MAX` bytes and more, for which it is violated. -/
theorem C102_server_dir_partial (m : CMem) (a : Nat) (arg : List Byte) (h : arg.length < pathMax) :
    OnlyIn m (serverDirAt m a arg) a pathMax ∧ TextAt (serverDirAt m a arg) a arg :=
  ⟨onlyIn_strcpy (Nat.le_refl _) (by omega), text_strcpy _ _ _⟩

/-- C102 is violated by the start of the server: a name of a storage directory of `PATH_MAX` bytes or more is written past the
end of the variable.  Whatever is there is replaced by the bytes of the argument. -/
theorem C102_violated_server_dir (m : CMem) (a : Nat) (arg : List Byte) (k : Nat) (h : pathMax + k < arg.length) :
    serverDirAt m a arg (a + pathMax + k) = arg.getD (pathMax + k) 0#8 := by
  rw [Nat.add_assoc]
  exact strcpy_past h

example : ∃ m arg, ¬ OnlyIn m (serverDirAt m 1000 arg) 1000 pathMax := by
  refine ⟨fun _ => 0#8, List.replicate 5000 47#8, fun h => ?_⟩
  have h1 := h (1000 + pathMax + 7) (Or.inr (by omega))
  rw [C102_violated_server_dir _ _ _ _ (by rw [List.length_replicate]; decide), List.getD_eq_getElem?_getD,
    List.getElem?_replicate, if_pos (by decide)] at h1
  exact absurd h1 (by decide)

/-- C102.  The name of the server's socket is refused or written within the bytes for it; in full, but for the first byte of a
name that begins with `@`. -/
theorem C102_server_socket (m : CMem) (a : Nat) (path : List Byte) :
    (serverSunAt m a path = none ↔ 107 ≤ path.length) ∧
    ∀ m', serverSunAt m a path = some m' → OnlyIn m m' a sunPathSize ∧
      TextAt m' a (if path.head? = some 64#8 then 0#8 :: path.tail else path) := by
  unfold serverSunAt
  have hs : sunPathSize = 108 := rfl
  refine ⟨by split <;> simp <;> omega, fun m' h => ?_⟩
  split at h
  · cases h
  · rename_i hn
    simp only [Option.some.injEq] at h
    subst h
    have ht : TextAt (strncpyAt m a path sunPathSize) a path := text_strncpy (by omega)
    split
    · rename_i hh
      refine ⟨(onlyIn_strncpy (Nat.le_refl _) (Nat.le_refl _)).then (onlyIn_put (Nat.le_refl _) (by simp [hs])), fun i hi => ?_⟩
      cases path with
      | nil => cases hh
      | cons c cs =>
        cases i with
        | zero => exact putAt_in (by simp)
        | succ i => rw [putAt_out (by simp), ht _ (by simpa using hi)]; rfl
    · exact ⟨onlyIn_strncpy (Nat.le_refl _) (Nat.le_refl _), ht⟩

example : (serverSunAt (fun _ => 7#8) 1000 (lit "/run/libcare/libcare.sock")).isSome := by decide +kernel

/-- C102.  The name of the socket that the client is given is written within the bytes for it, and in full if it fits. -/
theorem C102_client_socket (m : CMem) (a : Nat) (path : List Byte) :
    OnlyIn m (clientSunAt m a path) a (sunPathSize - 1) ∧ (path.length < 107 → TextAt (clientSunAt m a path) a path) :=
  ⟨onlyIn_strncpy (Nat.le_refl _) (Nat.le_refl _), fun h => text_strncpy h⟩

/-! ### The compiler wrapper -/

/-- C102.  For every assembler file `stem.patched.s` the names derived from it, `stem.original.s`, `/dev/null` in its place,
`stem.s.tmp` and the ones of the debug filter, are written within the arrays of just their sizes, and are there in full. -/
theorem C102_wrapper_names (m : CMem) (a : Nat) (stem : List Byte) :
    let p := stem ++ lit ".patched.s"
    (OnlyIn m (orignameAt m a p) a (orignameLen p) ∧ TextAt (orignameAt m a p) a (stem ++ lit ".original.s")) ∧
    (OnlyIn m (devNullAt m a) a (orignameLen p) ∧ TextAt (devNullAt m a) a (lit "/dev/null")) ∧
    (OnlyIn m (tmpnameAt m a p) a (tmpnameLen p) ∧ TextAt (tmpnameAt m a p) a (stem ++ lit ".s.tmp")) ∧
    (∀ s : List Byte, OnlyIn m (dbgTmpAt m a s) a (s.length + 5) ∧ TextAt (dbgTmpAt m a s) a (s ++ lit ".tmp")) ∧
    (∀ s : List Byte, OnlyIn m (gensrcPathAt m a s) a (s.length + 15) ∧ TextAt (gensrcPathAt m a s) a (s ++ lit "/kpatch_gensrc")) := by
  have h1 : (lit ".patched.s").length = 10 := by decide +kernel
  have h2 : (lit ".original.s").length = 11 := by decide +kernel
  have h3 : (lit ".s.tmp").length = 6 := by decide +kernel
  have h4 : (lit "/dev/null").length = 9 := by decide +kernel
  have h5 : (lit ".tmp").length = 4 := by decide +kernel
  have h6 : (lit "/kpatch_gensrc").length = 14 := by decide +kernel
  intro p
  have hp : p.length = stem.length + 10 := by simp [p, h1]
  have ho : orignameLen p = stem.length + 12 := by unfold orignameLen; omega
  have ht : tmpnameLen p = stem.length + 7 := by unfold tmpnameLen; omega
  have hk : a + (p.length + 1) - 11 = a + stem.length := by omega
  have htk : p.take stem.length = stem := by simp [p]
  refine ⟨⟨?_, ?_⟩, ⟨onlyIn_strcpy (Nat.le_refl _) (by omega), text_strcpy _ _ _⟩, ⟨?_, ?_⟩, fun s => ⟨?_, ?_⟩, fun s => ⟨?_, ?_⟩⟩
  · exact (onlyIn_strncpy (Nat.le_refl _) (Nat.le_refl _)).then (onlyIn_strcpy (by omega) (by omega))
  · rw [orignameAt, hk]
    have := text_over (m := strncpyAt m a p (orignameLen p)) (a := a) (k := stem.length) (p := p) (q := lit ".original.s") (by omega)
      (Or.inr fun i hi => strncpy_get (by omega))
    rwa [htk] at this
  · exact (onlyIn_strncpy (Nat.le_refl _) (Nat.le_refl _)).then (onlyIn_strcpy (by omega) (by omega))
  · rw [tmpnameAt, hk]
    have := text_over (m := strncpyAt m a p (tmpnameLen p)) (a := a) (k := stem.length) (p := p) (q := lit ".s.tmp") (by omega)
      (Or.inr fun i hi => strncpy_get (by omega))
    rwa [htk] at this
  · exact (onlyIn_strcpy (Nat.le_refl _) (by omega)).then (onlyIn_strcpy (by omega) (by omega))
  · rw [dbgTmpAt, show a + (s.length + 5) - 5 = a + s.length by omega]
    have := text_over (m := strcpyAt m a s) (a := a) (k := s.length) (p := s) (q := lit ".tmp") (Nat.le_refl _) (Or.inl (text_strcpy _ _ _))
    rwa [List.take_length] at this
  · exact (onlyIn_strcpy (Nat.le_refl _) (by omega)).then (onlyIn_strcpy (by omega) (by omega))
  · rw [gensrcPathAt, show a + (s.length + 15) - 15 = a + s.length by omega]
    have := text_over (m := strcpyAt m a s) (a := a) (k := s.length) (p := s) (q := lit "/kpatch_gensrc") (Nat.le_refl _) (Or.inl (text_strcpy _ _ _))
    rwa [List.take_length] at this

/-- C102.  The name of an assembler file is refused or written within `PATH_MAX` bytes, in full. -/
theorem C102_wrapper_file (m : CMem) (a : Nat) (full : List Byte) :
    (aspathAt m a full = none ↔ pathMax ≤ full.length) ∧
    ∀ m', aspathAt m a full = some m' → OnlyIn m m' a pathMax ∧ TextAt m' a full := by
  unfold aspathAt
  refine ⟨by split <;> simp <;> omega, fun m' h => ?_⟩
  split at h
  · cases h
  · simp only [Option.some.injEq] at h
    subst h
    rw [snprintfAt, List.take_of_length_le (by omega)]
    exact ⟨onlyIn_put (Nat.le_refl _) (by simp; omega), text_strcpy _ _ _⟩

example : (aspathAt (fun _ => 7#8) 1000 (lit "./.kpatch_a.o.patched.s")).isSome := by decide +kernel

/-! ### The assembler generator -/

/-- C102.  The letters after `mov` in any first token are written within the 16 bytes for them, as a string. -/
theorem C102_flavor (m : CMem) (a : Nat) (mov : Kpstr) (hk : mov.l ≤ mov.s.length) (m' : CMem) (h : flavorAt m a mov = some m') :
    OnlyIn m m' a 16 ∧ TextAt m' a (mov.text.drop 3) := by
  unfold flavorAt at h
  split at h
  · cases h
  · rename_i hn
    simp only [Option.some.injEq] at h
    subst h
    refine ⟨(onlyIn_strncpy (Nat.le_refl _) (by omega)).then (onlyIn_put (by omega) (by simp; omega)), ?_⟩
    have hl : (mov.text.drop 3).length = mov.l - 3 := by simp [Kpstr.text]; omega
    intro i hi
    rw [hl] at hi
    by_cases hlt : i < mov.l - 3
    · rw [putAt_out (by omega), strncpy_get hlt, List.getD_eq_getElem?_getD, List.getD_eq_getElem?_getD,
        List.getElem?_append_left (by omega), Kpstr.text, List.getElem?_drop, List.getElem?_drop, List.getElem?_take_of_lt (by omega)]
    · obtain rfl : i = mov.l - 3 := by omega
      have hz := putAt_in (m := strncpyAt m a (mov.s.drop 3) (mov.l - 3)) (a := a + (mov.l - 3)) (bs := [0#8]) (i := 0) (by simp)
      rw [Nat.add_zero] at hz
      rw [hz, List.getD_eq_getElem?_getD, List.getD_eq_getElem?_getD,
        List.getElem?_append_right (by omega), hl, Nat.sub_self]

example : (flavorAt (fun _ => 7#8) 1000 (getToken (some (lit "\tmovzbl\tx(%rip), %eax"))).1).isSome ∧
    (getToken (some (lit "\tmovzbl\tx(%rip), %eax"))).1.text.drop 3 = lit "zbl" := by decide +kernel

theorem text_cut {m : CMem} : ∀ (w : List Byte) (a : Nat), (∀ i, i < w.length → m (a + i) = w.getD i 0#8) → 0#8 ∈ w →
    TextAt m a (w.takeWhile fun c => c ≠ 0#8)
  | [], _, _, h => by cases h
  | c :: cs, a, hm, h => by
    by_cases hc : c = 0#8
    · subst hc
      rw [List.takeWhile_cons_of_neg (by simp)]
      intro i hi
      obtain rfl : i = 0 := by simpa using hi
      exact hm 0 (by simp)
    · rw [List.takeWhile_cons_of_pos (by simpa using hc)]
      have hmem : 0#8 ∈ cs := by
        rcases List.mem_cons.mp h with e | e
        · exact absurd e.symm hc
        · exact e
      have ih := text_cut (m := m) cs (a + 1) (fun i hi => by
        rw [show a + 1 + i = a + (i + 1) by omega, hm (i + 1) (by simpa using hi)]; rfl) hmem
      intro i hi
      cases i with
      | zero => exact hm 0 (by simp)
      | succ i =>
        rw [show a + (i + 1) = a + 1 + i by omega, ih i (by simpa using hi)]
        rfl

theorem putAt_append (m : CMem) (p : List Byte) (a : Nat) (q : List Byte) :
    putAt m a (p ++ q) = putAt (putAt m a p) (a + p.length) q := by
    funext x
    by_cases h1 : x < a
    · rw [putAt_out (Or.inl h1), putAt_out (by omega), putAt_out (Or.inl h1)]
    · obtain ⟨i, rfl⟩ : ∃ i, x = a + i := ⟨x - a, by omega⟩
      by_cases h2 : i < p.length
      · rw [putAt_in (by simp; omega), putAt_out (by omega), putAt_in h2, List.getD_eq_getElem?_getD, List.getD_eq_getElem?_getD,
          List.getElem?_append_left h2]
      · obtain ⟨j, rfl⟩ : ∃ j, i = p.length + j := ⟨i - p.length, by omega⟩
        by_cases h3 : j < q.length
        · rw [putAt_in (by simp; omega), ← Nat.add_assoc, putAt_in h3, List.getD_eq_getElem?_getD, List.getD_eq_getElem?_getD,
            List.getElem?_append_right (by omega), Nat.add_sub_cancel_left]
        · rw [putAt_out (by simp; omega), putAt_out (by omega), putAt_out (by omega)]

theorem reg_pair (m : CMem) (a : Nat) (p l : Byte) :
    let m' := putAt (putAt (putAt m a [37#8, 114#8]) (a + 2) [p, l]) (a + 4) [0#8]
    OnlyIn m m' a 8 ∧ TextAt m' a ([37#8, 114#8, p, l].takeWhile fun c => c ≠ 0#8) := by
  have e : putAt (putAt (putAt m a [37#8, 114#8]) (a + 2) [p, l]) (a + 4) [0#8] = putAt m a [37#8, 114#8, p, l, 0#8] := by
    rw [show [37#8, 114#8, p, l, 0#8] = [37#8, 114#8, p, l] ++ [0#8] from rfl, putAt_append,
      show [37#8, 114#8, p, l] = [37#8, 114#8] ++ [p, l] from rfl, putAt_append]
    rfl
  intro m'
  have h := text_cut (m := putAt m a [37#8, 114#8, p, l, 0#8]) [37#8, 114#8, p, l, 0#8] a (fun i hi => putAt_in hi) (by simp)
  have c : [37#8, 114#8, p, l, 0#8].takeWhile (fun c => c ≠ 0#8) = [37#8, 114#8, p, l].takeWhile fun c => c ≠ 0#8 := by
    by_cases h1 : p = 0#8 <;> by_cases h2 : l = 0#8 <;> simp [h1, h2]
  rw [c] at h
  exact ⟨by rw [show m' = _ from e]; exact onlyIn_put (Nat.le_refl _) (by simp), by rw [show m' = _ from e]; exact h⟩

theorem reg_short (m : CMem) (a : Nat) (p : Byte) :
    let m' := putAt (putAt m a [37#8, 114#8]) (a + 2) [p, 0#8]
    OnlyIn m m' a 8 ∧ TextAt m' a ([37#8, 114#8, p, 0#8].takeWhile fun c => c ≠ 0#8) := by
  have e : putAt (putAt m a [37#8, 114#8]) (a + 2) [p, 0#8] = putAt m a [37#8, 114#8, p, 0#8] := by
    rw [show [37#8, 114#8, p, 0#8] = [37#8, 114#8] ++ [p, 0#8] from rfl, putAt_append]
    rfl
  intro m'
  have h := text_cut (m := putAt m a [37#8, 114#8, p, 0#8]) [37#8, 114#8, p, 0#8] a (fun i hi => putAt_in hi) (by simp)
  exact ⟨by rw [show m' = _ from e]; exact onlyIn_put (Nat.le_refl _) (by simp), by rw [show m' = _ from e]; exact h⟩

/-- C102.  Whatever the destination is, the name of the 64-bit register is written within the 8 bytes for it, and the string there
is the register that the move then uses. -/
theorem C102_register (m : CMem) (a : Nat) (t : Kpstr) :
    match auxregAt m a t, getFullReg t with
    | none, none => True
    | some m', some reg => OnlyIn m m' a 8 ∧ TextAt m' a reg
    | _, _ => False := by
  unfold auxregAt getFullReg
  split
  · rename_i m' reg h1 h2
    split at h1 <;> trivial
  · rename_i m' reg h1 h2
    split at h1
    · rename_i hc
      rw [if_pos hc] at h2
      simp only [Option.some.injEq] at h1 h2
      subst h1 h2
      by_cases c1 : t.at (t.l - 1) = 104#8 ∨ t.at (t.l - 1) = 108#8 ∨ t.at (t.l - 1) = 120#8
      · rw [if_pos c1, if_pos c1]; exact reg_pair _ _ _ _
      · rw [if_neg c1, if_neg c1]
        by_cases c2 : t.at (t.l - 1) = 100#8
        · rw [if_pos c2, if_pos c2]
          by_cases c3 : t.l = 5
          · rw [if_pos c3, if_pos c3, if_neg (by omega), if_neg (by omega)]; exact reg_pair _ _ _ _
          · rw [if_neg c3, if_neg c3]
            by_cases c4 : t.l = 3
            · rw [if_pos c4, if_pos c4]; exact reg_short _ _ _
            · rw [if_neg c4, if_neg c4]; exact reg_pair _ _ _ _
        · rw [if_neg c2, if_neg c2]
          by_cases c4 : t.l = 3
          · rw [if_pos c4, if_pos c4]; exact reg_short _ _ _
          · rw [if_neg c4, if_neg c4]; exact reg_pair _ _ _ _
    · cases h1
  · rename_i x y h1 h2
    by_cases hc : 2 < t.l ∧ t.at 0 = 37#8
    · rw [if_pos hc, if_pos hc] at *
      exact (h2 _ _ rfl rfl).elim
    · rw [if_neg hc, if_neg hc] at *
      exact (h1 rfl rfl).elim

example : getFullReg (kpz (lit "%r11d")) = some (lit "%r11") ∧ getFullReg (kpz (lit "%al")) = some (lit "%rax") := by decide +kernel

theorem strcpy_overrun {s : List Byte} {n : Nat} (h : n < s.length) (a : Nat) : ∃ m, ¬ OnlyIn m (strcpyAt m a s) a n := by
  refine ⟨fun _ => s.getD n 0#8 + 1#8, fun ho => ?_⟩
  have := ho (a + n) (Or.inr (Nat.le_refl _))
  rw [strcpy_past h] at this
  have key : ∀ b : Byte, b ≠ b + 1#8 := by decide
  exact key _ this

/-- The lengths of several texts together. -/
def totalLen (ts : List (List Byte)) : Nat := (ts.map List.length).sum

theorem rewritten_length {mp : NameMap} {line out : List Byte} {ts : List (List Byte)} (h : Rewritten mp line ts out)
    (hnl : 10#8 ∉ line) : out.length + totalLen ts = line.length + totalLen (ts.map mp.apply) := by
  induction h with
  | done b r hb hr => rw [no_nl hr (fun hc => hnl (by simp [hc])), List.append_nil]; simp [totalLen]
  | tok b t rest out ts hb ht h ih =>
    have := ih (fun hc => hnl (by simp [hc]))
    simp only [totalLen, List.map_cons, List.sum_cons, List.length_append] at this ⊢
    omega

/-- C102 except for new names that are too long.  A line with its names replaced is written within the bytes for it, and in full,
if together the new names do not make it longer than the array.  Missing: lines that grow more, for which it is violated. -/
theorem C102_line_partial (f : Renames) (mp : NameMap) (hf : RenRep f mp) (he : mp [] = none) (line : List Byte) (hnl : 10#8 ∉ line)
    (hline : line.length < 65536) (hlen : line.length + totalLen ((tokens (some line)).map fun t => mp.apply t.text) <
      131072 + totalLen ((tokens (some line)).map Kpstr.text)) (m : CMem) (a : Nat) :
    OnlyIn m (renamedLineAt m a f line) a lineBuf ∧ TextAt (renamedLineAt m a f line) a (strDoRename f (some line)) := by
  refine ⟨onlyIn_strcpy (Nat.le_refl _) ?_, text_strcpy _ _ _⟩
  rcases C43_line_rewritten f mp hf line he with hr | ⟨b, r, h1, _, h3, h4⟩
  · have := rewritten_length hr hnl
    rw [List.map_map] at this
    simp only [Function.comp_def] at this
    unfold lineBuf
    omega
  · rw [h4]
    have := congrArg List.length h1
    simp only [List.length_append] at this
    unfold lineBuf
    omega

example : (lit "jmp .L12").length < 65536 ∧ (lit "jmp .L12").length + totalLen ((tokens (some (lit "jmp .L12"))).map fun t =>
    NameMap.apply (fun n => if n = lit ".L12" then some (lit ".L12.kpatch") else none) t.text) <
      131072 + totalLen ((tokens (some (lit "jmp .L12"))).map Kpstr.text) := by decide +kernel

theorem line_overrun (size : Nat) (name : List Byte) (hcut : name.takeWhile (· != 0) = name) (h5 : 5 < size)
    (hlen : size < 3 * name.length + 2) :
    ∃ f, runRen .nil [.add (kpz [0x61#8]) (kpz name)] = some f ∧
      ∀ a, ∃ m, ¬ OnlyIn m (renamedLineAt m a f (lit "a,a,a")) a size := by
  have hne : [0x61#8] ≠ name := fun e => by rw [← e, List.length_singleton] at hlen; omega
  have htx : (kpz name).text = name := by simp [kpz, Kpstr.text]
  have htx' : (kpz [0x61#8]).text = [0x61#8] := rfl
  have hs : specRen (fun _ => none) [.add (kpz [0x61#8]) (kpz name)] = some fun nm => if nm = [0x61#8] then some name else none := by
    simp only [specRen, RenOp.spec, htx, htx', if_neg hne, Option.bind_some]
  obtain ⟨f, h1, h2⟩ := C43_history [.add (kpz [0x61#8]) (kpz name)]
    (fun o ho => by rw [List.mem_singleton.mp ho]; exact ⟨Nat.le_refl _, Nat.le_refl _⟩) _ hs (if_neg (by simp))
  refine ⟨f, h1, fun a => ?_⟩
  have hnl : 10#8 ∉ lit "a,a,a" := by decide +kernel
  have htok : (tokens (some (lit "a,a,a"))).map Kpstr.text = [[0x61#8], [0x2c#8], [0x61#8], [0x2c#8], [0x61#8]] := by decide +kernel
  have hr := (h2 (lit "a,a,a") hnl).1
  rw [htok] at hr
  rcases hr with hr | hr
  · have hL := rewritten_length hr hnl
    have h5 : (lit "a,a,a").length = 5 := by decide +kernel
    simp only [List.map_cons, List.map_nil, NameMap.apply, totalLen, List.sum_cons, List.sum_nil, h5, List.length_cons, List.length_nil,
      ↓reduceIte, Option.map_some, Option.getD_some, hcut] at hL
    rw [if_neg (by decide)] at hL
    simp only [Option.map_none, Option.getD_none, List.length_cons, List.length_nil] at hL
    have hlt : size < (strDoRename f (some (lit "a,a,a"))).length := by omega
    exact strcpy_overrun hlt a
  · have := hr.1
    revert this
    have : ¬ ∀ c ∈ lit "a,a,a", c = 32#8 ∨ c = 9#8 := by decide +kernel
    intro h
    exact absurd h (by unfold AllBlank; simpa using this)

/-- C102 is violated by lines with long names: with one name of one letter renamed to another of 65000 letters, the line `a,a,a` is
written past the end of its array. -/
theorem C102_violated_line :
    ∃ (f : Renames) (name : List Byte), name.length = 65000 ∧ runRen .nil [.add (kpz [0x61#8]) (kpz name)] = some f ∧
      ∀ a, ∃ m, ¬ OnlyIn m (renamedLineAt m a f (lit "a,a,a")) a lineBuf := by
  obtain ⟨name, hlen, hcut, -⟩ := long_text 65000 0x62#8 (by decide)
  obtain ⟨f, h1, h2⟩ := line_overrun lineBuf name hcut (by decide) (by rw [hlen]; decide)
  exact ⟨f, name, hlen, h1, h2⟩

/-! ### Rewritten moves -/

theorem token_room (s : List Byte) : (getToken (some s)).1.l ≤ s.length ∧
    ∀ r, (getToken (some s)).2 = some r → (getToken (some s)).1.l + r.length ≤ s.length := by
  by_cases h : atEnd (skipBlanks s) = true
  · have e : getToken (some s) = _ := getTokenD_end delims s h
    rw [e]
    exact ⟨Nat.zero_le _, fun r hr => by cases hr⟩
  · obtain ⟨b, t, r, hb, ht, hsp, hr, h1, h2⟩ := getTokenD_some delims s (by simpa using h)
    have h1' : (getToken (some s)).1 = ⟨t ++ r, t.length⟩ := h1
    have h2' : (getToken (some s)).2 = _ := h2
    have hl := congrArg List.length hsp
    simp only [List.length_append] at hl
    rw [h1', h2']
    refine ⟨by dsimp only; omega, fun q hq => ?_⟩
    split at hq
    · cases hq
    · cases hq
      have : (skipBlanks r).length ≤ r.length := (List.dropWhile_suffix _).length_le
      dsimp only
      omega

theorem addTokens_room (stop : List Byte) : ∀ (k : Nat) (s : List Byte), s.length ≤ k → ∀ r, (addTokens stop (some s)).2 = some r →
    (addTokens stop (some s)).1 + r.length ≤ s.length := by
  intro k
  induction k with
  | zero =>
    intro s hs r
    have : s = [] := List.length_eq_zero_iff.mp (by omega)
    subst this
    rw [addTokens]
    have : getToken (some []) = _ := getTokenD_end delims [] rfl
    split
    rename_i t s' heq
    rw [this] at heq
    cases heq
    split
    · intro h; cases h
    · rw [addTokens]; intro h; cases h
  | succ k ih =>
    intro s hs r
    obtain ⟨h0, h1⟩ := token_room s
    rw [addTokens]
    split
    rename_i t s' heq
    rw [heq] at h0 h1
    dsimp only at h0 h1
    split
    · intro h
      dsimp only at h
      have := h1 r h
      dsimp only
      omega
    · intro h
      dsimp only at h ⊢
      cases s' with
      | none => rw [addTokens] at h; cases h
      | some s'' =>
        have hlt : s''.length < s.length := getTokenD_length delims (show (getToken (some s)).2 = some s'' by rw [heq])
        have := ih s'' (by omega) r h
        have := h1 s'' rfl
        omega

theorem text_le (t : Kpstr) : t.text.length ≤ t.l ∧ t.text.length ≤ t.s.length := by
  simp only [Kpstr.text, List.length_take]; omega

theorem token_text (s : List Byte) : (getToken (some s)).1.s.length ≤ s.length := by
  unfold getToken getTokenD
  dsimp only
  split
  · simp
  · exact (List.dropWhile_suffix _).length_le

theorem fullReg_length {t : Kpstr} {r : List Byte} (h : getFullReg t = some r) : r.length ≤ 4 := by
  have hcut : ∀ p l : Byte, (([37#8, 114#8, p, l]).takeWhile fun c => c ≠ 0#8).length ≤ 4 := fun p l =>
    (List.takeWhile_prefix _).length_le
  unfold getFullReg at h
  split at h
  · simp only [Option.some.injEq] at h
    subst h
    repeat' split
    all_goals exact hcut _ _
  · cases h

theorem gotpcrel_room {src out : List Byte} (h : strDoGotpcrel src = some out) : out.length ≤ src.length + 79 := by
  have l1 : (lit "\tmovq\t").length = 6 := by decide +kernel
  have l2 : gotpcrelSuffix.length = 15 := by decide +kernel
  have l3 : (lit ", ").length = 2 := by decide +kernel
  have l4 : (lit "\n\tmov").length = 5 := by decide +kernel
  have l5 : (lit "\t(").length = 2 := by decide +kernel
  have l6 : (lit "), ").length = 3 := by decide +kernel
  have l7 : (lit "\tpushq\t").length = 7 := by decide +kernel
  have l8 : (lit "\n\tmovq\t").length = 7 := by decide +kernel
  have l9 : (lit "\t").length = 1 := by decide +kernel
  have l10 : (lit ", (").length = 3 := by decide +kernel
  have l11 : (lit ")\n\tpopq\t").length = 8 := by decide +kernel
  have l12 : (lit "%rax").length = 4 := by decide +kernel
  have l13 : (lit "%rbx").length = 4 := by decide +kernel
  have triv : ∀ {o : List Byte}, some src = some o → o.length ≤ src.length + 79 := fun e => by cases e; omega
  unfold strDoGotpcrel at h
  obtain ⟨r0, r1⟩ := token_room src
  generalize getToken (some src) = p0 at h r0 r1
  obtain ⟨mov, s⟩ := p0
  dsimp only at h r0 r1
  split at h
  · exact triv h
  split at h
  · cases h
  rename_i s1
  have r2 := r1 s1 rfl
  split at h
  · exact triv h
  split at h
  · exact triv h
  rename_i hn
  obtain ⟨q0, q1⟩ := token_room s1
  generalize getToken (some s1) = p1 at h q0 q1
  obtain ⟨src0, sa⟩ := p1
  dsimp only at h q0 q1
  generalize hadd : addTokens (lit ",") sa = p2 at h
  obtain ⟨n, sb⟩ := p2
  dsimp only at h
  split at h
  · cases h
  rename_i s2
  have hroom : src0.l + n + s2.length ≤ s1.length := by
    cases sa with
    | none => rw [addTokens] at hadd; cases hadd
    | some a =>
      have e := addTokens_room (lit ",") a.length a (Nat.le_refl _) s2 (by rw [hadd])
      rw [hadd] at e
      have := q1 a rfl
      dsimp only at e
      omega
  have hd := token_text s2
  generalize getToken (some s2) = p3 at h hd
  obtain ⟨dst0, sc⟩ := p3
  dsimp only at h hd
  have hms := (text_le ⟨src0.s, src0.l + n⟩).1
  have hfl : ((mov.s.drop 3).take (mov.l - 3)).length ≤ 15 := by simp only [List.length_take]; omega
  have hws : (withoutRip ⟨src0.s, src0.l + n⟩).length ≤ src0.l + n := by simp only [withoutRip, List.length_take]; omega
  generalize addTokens [10#8] sc = p4 at h
  obtain ⟨k, sd⟩ := p4
  dsimp only at h hms
  have hmd := (text_le ⟨dst0.s, dst0.l + k⟩).2
  have hwd : (withoutRip ⟨dst0.s, dst0.l + k⟩).length ≤ dst0.s.length := by simp only [withoutRip, List.length_take]; omega
  dsimp only at hmd
  split at h
  · split at h
    · exact triv h
    split at h
    · exact triv h
    obtain ⟨aux, ha, he⟩ := Option.map_eq_some_iff.mp h
    have := fullReg_length ha
    subst he
    simp only [List.length_append, l1, l2, l3, l4, l5, l6]
    omega
  · split at h
    · split at h
      · exact triv h
      simp only [Option.some.injEq] at h
      subst h
      split <;> simp only [List.length_append, l2, l3, l4, l7, l8, l9, l10, l11, l12, l13] <;> omega
    · exact triv h

/-- C102.  Every line as it was read, of less than 65536 bytes, and every line with new names that leaves 81 bytes of its array
free, is written within the bytes for it and in full after its move is rewritten. -/
theorem C102_move (m : CMem) (a : Nat) (line : List Byte) (hline : line.length < 65536 ∨ line.length + 81 ≤ 131072) :
    (movedLineAt m a line = none ↔ strDoGotpcrel line = none) ∧
    ∀ out, strDoGotpcrel line = some out → ∃ m', movedLineAt m a line = some m' ∧ OnlyIn m m' a lineBuf ∧ TextAt m' a out := by
  refine ⟨by simp [movedLineAt], fun out h => ⟨_, by rw [movedLineAt, h]; rfl, ?_, ?_⟩⟩
  · have := gotpcrel_room h
    have hb : lineBuf = 131072 := rfl
    exact (onlyIn_strcpy (Nat.le_refl _) (by simp; omega)).then (onlyIn_put (by omega) (by simp; omega))
  · have := text_over (m := strcpyAt m a (out ++ [10#8])) (a := a) (k := out.length) (p := out ++ [10#8]) (q := []) (by simp)
      (Or.inl (text_strcpy _ _ _))
    rw [List.take_left, List.append_nil] at this
    exact this

example : (lit "\tmovl\tcounter(%rip), %eax").length < 65536 ∧ strDoGotpcrel (lit "\tmovl\tcounter(%rip), %eax") =
    some (lit "\tmovq\tcounter@GOTPCREL(%rip), %rax\n\tmovl\t(%rax), %eax") := by decide +kernel

end Verif
