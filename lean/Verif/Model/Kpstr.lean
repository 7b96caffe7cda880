import Verif.Model.Patch
/-
Model of the counted strings of the assembler tools, src/include/kpatch_str.h, and of the tokenizer,
src/kpatch_parse.c.
-/
namespace Verif

/-- `strstr(h, n) != NULL` on the bytes before the terminator. C library; used for example at `src/kpatch_gensrc.c:351`. -/
def hasSub : List Byte → List Byte → Bool
  | [], n => n == []
  | h@(_ :: t), n => n.isPrefixOf h || hasSub t n

/-- The bytes of a string literal. C string literals; no source of its own in the code, used for example at `src/kpatch_parse.c:87`. -/
def lit (s : String) : List Byte := s.toUTF8.toList.map fun b => b.toBitVec

/-- `kpstr_t`: a pointer into a C string and a length.  The pointer is modelled as the rest of the C string from it
(bytes without the final NUL).  src/include/kpatch_str.h:11-14. -/
structure Kpstr where
  s : List Byte
  l : Nat
deriving DecidableEq, Repr

/-- The characters of the string. `src/include/kpatch_str.h:11-14`. -/
def Kpstr.text (x : Kpstr) : List Byte := x.s.take x.l

/-- memcmp of `n` bytes; only the sign of the result is specified by C, here it is the difference of the first
differing bytes. C library; used at `src/include/kpatch_str.h:36`. -/
def memcmp : Nat → List Byte → List Byte → Int
  | 0, _, _ => 0
  | _, [], _ => 0
  | _, _, [] => 0
  | n + 1, a :: as, b :: bs => if a = b then memcmp n as bs else (a.toNat : Int) - b.toNat

/-- src/include/kpatch_str.h:30-47 (kpstrncmp). -/
def kpstrncmp (s1 s2 : Kpstr) (maxlen : Nat) : Int :=
  let len := if s1.l < s2.l then s1.l else s2.l
  let len := if len < maxlen then len else maxlen
  let res := memcmp len s1.s s2.s
  if res ≠ 0 then res
  else if s1.l > s2.l ∧ s2.l < maxlen then 1
  else if s1.l < s2.l ∧ s1.l < maxlen then -1
  else 0

/-- src/include/kpatch_str.h:49-52 (kpstrcmp). -/
def kpstrcmp (s1 s2 : Kpstr) : Int := kpstrncmp s1 s2 (if s1.l > s2.l then s1.l else s2.l)

/-- A C string as a counted string. `src/include/kpatch_str.h:56-57`, `src/include/kpatch_str.h:64-65`. -/
def kpz (s : List Byte) : Kpstr := ⟨s, s.length⟩

/-- src/include/kpatch_str.h:55-60 (kpstrcmpz). -/
def kpstrcmpz (s1 : Kpstr) (s : List Byte) : Int := kpstrcmp s1 (kpz s)

/-- src/include/kpatch_str.h:63-68 (kpstrncmpz). -/
def kpstrncmpz (s1 : Kpstr) (s : List Byte) : Int := kpstrncmp s1 (kpz s) (kpz s).l

/-- `isblank`: space or tab. C library; used at `src/include/kpatch_str.h:73`. -/
def isBlank (c : Byte) : Bool := c = 32#8 || c = 9#8

/-- src/include/kpatch_str.h:72-77 (skip_blanks). -/
def skipBlanks (s : List Byte) : List Byte := s.dropWhile isBlank

/-- `!*s || *s == '\n'`. `src/kpatch_parse.c:43-73` (__get_token). -/
def atEnd (s : List Byte) : Bool := s = [] || s.head? = some 10#8

/-- The end of a quoted string, from the character after the opening quote: at the closing quote or at the end.  A
backslash and the character after it are skipped.  src/kpatch_parse.c:57-58 (__get_token). -/
def quoteEnd : List Byte → List Byte
  | [] => []
  | [c] => if c = 34#8 then [c] else []
  | c :: d :: r =>
    if c = 34#8 then c :: d :: r
    else if c = 92#8 then quoteEnd r
    else quoteEnd (d :: r)

/-- The end of the token that starts at `s`, not empty.  src/kpatch_parse.c:56-65 (__get_token). -/
def tokenEnd (delim : List Byte) (s : List Byte) : List Byte :=
  let e :=
    if s.head? = some 34#8 then
      let e := quoteEnd (s.drop 1)
      if e.head? = some 34#8 then e.drop 1 else e
    else s.dropWhile fun c => !delim.contains c
  if e.length = s.length then s.drop 1 else e

/-- One token and the rest of the line; `none` is the NULL pointer.  src/kpatch_parse.c:42-73 (__get_token). -/
def getTokenD (delim : List Byte) (str : Option (List Byte)) : Kpstr × Option (List Byte) :=
  match str with
  | none => (⟨[], 0⟩, none)
  | some s =>
    let s := skipBlanks s
    if atEnd s then (⟨[], 0⟩, none)
    else
      let e := tokenEnd delim s
      let e' := skipBlanks e
      (⟨s, s.length - e.length⟩, if atEnd e' then none else some e')

/-- The delimiters: space, tab `,;:-+*()[]$` and newline.  src/kpatch_parse.c:77 (get_token). -/
def delims : List Byte := [32#8, 9#8, 44#8, 59#8, 58#8, 45#8, 43#8, 42#8, 40#8, 41#8, 91#8, 93#8, 36#8, 10#8]

/-- src/kpatch_parse.c:75-79 (get_token). -/
def getToken (str : Option (List Byte)) : Kpstr × Option (List Byte) := getTokenD delims str

theorem quoteEnd_length : ∀ s : List Byte, (quoteEnd s).length ≤ s.length := by
  intro s
  fun_induction quoteEnd s with
  | case1 => simp
  | case2 => simp
  | case3 => simp
  | case4 => simp
  | case5 => simp only [List.length_cons] at *; omega
  | case6 => simp only [List.length_cons] at *; omega

theorem dropWhile_length (p : Byte → Bool) (s : List Byte) : (s.dropWhile p).length ≤ s.length := by
  induction s with
  | nil => simp
  | cons c s ih => rw [List.dropWhile_cons]; split <;> simp only [List.length_cons] <;> omega

theorem tokenEnd_length (delim s : List Byte) (h : s ≠ []) : (tokenEnd delim s).length < s.length := by
  have hpos : 0 < s.length := List.length_pos_iff.mpr h
  have key : ∀ e : List Byte, e.length ≤ s.length → (if e.length = s.length then s.drop 1 else e).length < s.length := by
    intro e he
    split
    · rw [List.length_drop]; omega
    · omega
  unfold tokenEnd
  apply key
  split
  · have := quoteEnd_length (s.drop 1)
    rw [List.length_drop] at this
    dsimp only
    split
    · rw [List.length_drop]; omega
    · omega
  · exact dropWhile_length _ s

/-- Every token makes the rest shorter: the loops over tokens end. -/
theorem getTokenD_length (delim : List Byte) {s e : List Byte} (h : (getTokenD delim (some s)).2 = some e) :
    e.length < s.length := by
  simp only [getTokenD] at h
  split at h
  · cases h
  · rename_i hend
    split at h
    · cases h
    · simp only [Option.some.injEq] at h
      subst h
      have h0 : skipBlanks s ≠ [] := by rintro e; simp [atEnd, e] at hend
      have h1 := tokenEnd_length delim (skipBlanks s) h0
      have h2 := dropWhile_length isBlank s
      have h3 := dropWhile_length isBlank (tokenEnd delim (skipBlanks s))
      unfold skipBlanks at h1 h3 ⊢
      omega

/-- The tokens of a line: the loop `while (s) get_token(&s, &t)`. For example `src/kpatch_gensrc.c:237-247`. -/
def tokens (str : Option (List Byte)) : List Kpstr :=
  match str with
  | none => []
  | some s =>
    match h : getToken (some s) with
    | (t, none) => [t]
    | (t, some r) => t :: tokens (some r)
termination_by str.elim 0 (fun s => s.length + 1)
decreasing_by
  have : (getToken (some s)).2 = some r := by rw [h]
  have := getTokenD_length delims this
  simp only [Option.elim_some]
  omega

end Verif
