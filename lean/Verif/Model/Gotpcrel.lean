import Verif.Model.Rename
/-
Model of the rewriting of moves to and from global variables for --force-gotpcrel, src/kpatch_gensrc.c.
-/
namespace Verif

/-- A character in lower case, for strncasecmp. C library; used at `src/kpatch_gensrc.c:261`. -/
def lowerChar (c : Byte) : Byte := if 65 ≤ c.toNat ∧ c.toNat ≤ 90 then c + 32#8 else c

/-- `t` is longer than `n` characters and ends with `suf`, in upper or lower case:
`!strncasecmp(t->s + t->l - len, suf, len)`. `src/kpatch_gensrc.c:256-270`, `src/kpatch_gensrc.c:326-330`. -/
def endsWithCase (t : Kpstr) (n : Nat) (suf : List Byte) : Bool :=
  decide (n < t.l) && decide (((t.s.drop (t.l - suf.length)).take suf.length).map lowerChar = suf.map lowerChar)

/-- src/kpatch_gensrc.c:251-252. -/
def gotpcrelSuffix : List Byte := lit "@GOTPCREL(%rip)"

/-- src/kpatch_gensrc.c:254-255. -/
def gottpoffSuffix : List Byte := lit "@GOTTPOFF(%rip)"

/-- src/kpatch_gensrc.c:257-276 (is_gotpcrel, is_gottpoff, is_gotpcrel_or_gottpoff). -/
def isGotpcrel (t : Kpstr) : Bool :=
  endsWithCase t (gotpcrelSuffix.length + 1) gotpcrelSuffix || endsWithCase t (gottpoffSuffix.length + 1) gottpoffSuffix

/-- A byte of a string. `t->s[i]`, for example `src/kpatch_gensrc.c:326-333`. -/
def Kpstr.at (t : Kpstr) (i : Nat) : Byte := t.s.getD i 0

/-- The 64-bit register written into `dstreg`, as a C string; `none`: kpfatal.  src/kpatch_gensrc.c:278-315
(get_full_reg). -/
def getFullReg (t : Kpstr) : Option (List Byte) :=
  if 2 < t.l ∧ t.at 0 = 37#8 then
    let prev := t.at (t.l - 2)
    let last := t.at (t.l - 1)
    let cut (p l : Byte) : List Byte := ([37#8, 114#8, p, l]).takeWhile fun c => c ≠ 0#8
    let dflt (p l : Byte) : List Byte := if t.l = 3 then cut (t.at 2) 0#8 else cut p l
    some (
      if last = 104#8 ∨ last = 108#8 ∨ last = 120#8 then cut prev 120#8
      else if last = 100#8 then
        if t.l = 5 then dflt (t.at 2) (t.at 3) else dflt prev 0#8
      else dflt prev last)
  else none

/-- src/kpatch_gensrc.c:318-321 (is_rax_reference). -/
def isRaxReference (t : Kpstr) : Bool := decide (2 < t.l) && t.at 0 = 37#8 && t.at (t.l - 2) = 97#8

/-- src/kpatch_gensrc.c:323-324. -/
def ripSuffix : List Byte := lit "(%rip)"

/-- src/kpatch_gensrc.c:326-331 (is_global_rip_reference). -/
def isGlobalRip (t : Kpstr) : Bool :=
  endsWithCase t ripSuffix.length ripSuffix && (t.at 0 ≠ 46#8 || t.at 1 ≠ 76#8)

/-- `do { get_token(&s, &tok); if (!kpstrcmpz(&tok, stop)) break; x.l += tok.l; } while (s)`: the length added to `x.l`
and the pointer after the loop.  src/kpatch_gensrc.c:360-365, 371-376 (str_do_gotpcrel). -/
def addTokens (stop : List Byte) (s : Option (List Byte)) : Nat × Option (List Byte) :=
  match s with
  | none => (0, none)
  | some a =>
    match h : getToken (some a) with
    | (t, s') =>
      if kpstrcmpz t stop = 0 then (0, s')
      else
        let r := addTokens stop s'
        (t.l + r.1, r.2)
termination_by s.elim 0 (fun s => s.length + 1)
decreasing_by
  cases s' with
  | none => simp
  | some a' =>
    have : (getToken (some a)).2 = some a' := by rw [h]
    have := getTokenD_length delims this
    simp only [Option.elim_some]
    omega

/-- `%.*s` with the length `l - sizeof("(%rip)") + 1`. `src/kpatch_gensrc.c:380-425`. -/
def withoutRip (t : Kpstr) : List Byte := t.s.take (t.l - ripSuffix.length)

/-- The text of the instructions in place of `src`; `none`: kpfatal, or a crash in strstr(NULL).
src/kpatch_gensrc.c:337-430 (str_do_gotpcrel). -/
def strDoGotpcrel (src : List Byte) : Option (List Byte) :=
  let (mov, s) := getToken (some src)
  if kpstrncmpz mov (lit "mov") ≠ 0 then some src
  else
    match s with
    | none => none
    | some s1 =>
      if hasSub s1 (lit "%rip") = false then some src
      else if mov.l < 3 ∨ mov.l - 3 ≥ 16 then some src
      else
        let flavor := (mov.s.drop 3).take (mov.l - 3)
        let (src0, s) := getToken (some s1)
        let (n, s) := addTokens (lit ",") s
        let movsrc : Kpstr := ⟨src0.s, src0.l + n⟩
        match s with
        | none => none
        | some s2 =>
          let (dst0, s) := getToken (some s2)
          let (m, _) := addTokens [10#8] s
          let movdst : Kpstr := ⟨dst0.s, dst0.l + m⟩
          if isGlobalRip movsrc then
            if isGotpcrel movsrc then some src
            else if hasSub movdst.s (lit "%xmm") then some src
            else
              (getFullReg movdst).map fun aux =>
                lit "\tmovq\t" ++ withoutRip movsrc ++ gotpcrelSuffix ++ lit ", " ++ aux ++ lit "\n\tmov" ++ flavor ++
                  lit "\t(" ++ aux ++ lit "), " ++ movdst.text
          else if isGlobalRip movdst then
            if isGotpcrel movdst then some src
            else
              let aux := if isRaxReference movsrc then lit "%rbx" else lit "%rax"
              some (lit "\tpushq\t" ++ aux ++ lit "\n\tmovq\t" ++ withoutRip movdst ++ gotpcrelSuffix ++ lit ", " ++ aux ++
                lit "\n\tmov" ++ flavor ++ lit "\t" ++ movsrc.text ++ lit ", (" ++ aux ++ lit ")\n\tpopq\t" ++ aux)
          else some src

end Verif
