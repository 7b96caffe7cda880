/-
Specification for C75: what statements the assembler (GNU as) finds in a text, byte by byte.
-/
namespace Verif

/-- What a byte of a line is part of: code, a string, a string after a backslash, a comment. -/
inductive AsmMode where
  | code | str | esc | cmt
  deriving DecidableEq

/-- The comments of an assembler: on AArch64 `//` starts a comment anywhere and `#` only at the start of a statement, on the
other architectures `#` starts one anywhere. -/
inductive AsmSyntax where
  | hash | slashes
  deriving DecidableEq

/-- The assembler while it reads: the mode, the statement it is reading without leading blanks, the statements before. -/
structure AsmLex where
  mode : AsmMode := .code
  cur : List (BitVec 8) := []
  out : List (List (BitVec 8)) := []
  deriving DecidableEq

def asmBlank (c : BitVec 8) : Bool := c == 0x20#8 || c == 0x09#8

/-- Without trailing blanks. -/
def asmTrim (w : List (BitVec 8)) : List (BitVec 8) := (w.reverse.dropWhile asmBlank).reverse

/-- A character of a symbol: letter, digit, `_`, `.`, `@` or above 127. -/
def asmSymChar (c : BitVec 8) : Bool :=
  (0x61#8 ≤ c && c ≤ 0x7a#8) || (0x41#8 ≤ c && c ≤ 0x5a#8) || (0x30#8 ≤ c && c ≤ 0x39#8) || c == 0x5f#8 || c == 0x2e#8 ||
    c == 0x40#8 || 0x80#8 ≤ c

/-- A symbol, possibly followed by blanks: with a colon after it, a label. -/
def asmLabel (w : List (BitVec 8)) : Bool := asmTrim w != [] && (asmTrim w).all asmSymChar

/-- The statement `w` ends; empty statements do not count. -/
def asmEmit (w : List (BitVec 8)) : List (List (BitVec 8)) := if asmTrim w = [] then [] else [asmTrim w]

/-- One byte. -/
def asmStep (syn : AsmSyntax) (l : AsmLex) (c : BitVec 8) : AsmLex :=
  match l.mode with
  | .cmt => l
  | .esc => { l with mode := .str, cur := l.cur ++ [c] }
  | .str =>
    { l with mode := if c = 0x5c#8 then .esc else if c = 0x22#8 then .code else .str, cur := l.cur ++ [c] }
  | .code =>
    if c = 0x23#8 ∧ (syn = .hash ∨ l.cur = []) then { l with mode := .cmt }
    else if c = 0x2f#8 ∧ syn = .slashes ∧ l.cur.getLast? = some 0x2f#8 then { l with mode := .cmt, cur := l.cur.dropLast }
    else if c = 0x3b#8 then { l with cur := [], out := l.out ++ asmEmit l.cur }
    else if c = 0x3a#8 ∧ asmLabel l.cur = true then { l with cur := [], out := l.out ++ [asmTrim l.cur ++ [c]] }
    else if asmBlank c = true ∧ l.cur = [] then l
    else { l with mode := if c = 0x22#8 then .str else .code, cur := l.cur ++ [c] }

/-- After the first bytes `a` of a line. -/
def asmAfter (syn : AsmSyntax) (a : List (BitVec 8)) : AsmLex := a.foldl (asmStep syn) {}

/-- The statements of a line; a label is a statement of its own. -/
def asmView (syn : AsmSyntax) (line : List (BitVec 8)) : List (List (BitVec 8)) :=
  (asmAfter syn line).out ++ asmEmit (asmAfter syn line).cur

/-- Characters between words: blank, tab, newline and ``,;:-+*()[]$``. -/
def asmDelim (c : BitVec 8) : Bool :=
  [0x20#8, 0x09#8, 0x2c#8, 0x3b#8, 0x3a#8, 0x2d#8, 0x2b#8, 0x2a#8, 0x28#8, 0x29#8, 0x5b#8, 0x5d#8, 0x24#8, 0x0a#8].contains c

/-- A word can start after `a`: at the start of a line, after a delimiter or after a closing quote. -/
def WordStart (a : List (BitVec 8)) : Prop := ∀ c, a.getLast? = some c → asmDelim c = true ∨ c = 0x22#8

/-- No separator and no colon. -/
def Quiet (b : List (BitVec 8)) : Prop := 0x3b#8 ∉ b ∧ 0x3a#8 ∉ b

/-- A line in the usual style: strings start words, the `#` or `//` of a comment is a word of its own if a `;` or `:` follows
in the comment, and what stands before the first colon of a statement is a symbol.  There are no character constants
and no `/*` comments, of which `asmStep` knows nothing. -/
structure UsualLine (syn : AsmSyntax) (line : List (BitVec 8)) : Prop where
  noNewline : 0x0a#8 ∉ line
  quote : ∀ a b, line = a ++ 0x22#8 :: b → (asmAfter syn a).mode = .code → WordStart a
  hash : ∀ a b, line = a ++ 0x23#8 :: b → (asmAfter syn a).mode = .code → (asmAfter syn (a ++ [0x23#8])).mode = .cmt →
    Quiet b ∨ (WordStart a ∧ ∀ c, b.head? = some c → asmDelim c = true)
  slashes : ∀ a b, line = a ++ 0x2f#8 :: 0x2f#8 :: b → (asmAfter syn (a ++ [0x2f#8])).mode = .code →
    (asmAfter syn (a ++ [0x2f#8, 0x2f#8])).mode = .cmt → Quiet b ∨ (WordStart a ∧ ∀ c, b.head? = some c → asmDelim c = true)
  colon : ∀ a b, line = a ++ 0x3a#8 :: b → (asmAfter syn a).mode = .code →
    (∀ c, (asmAfter syn a).cur.head? = some c → c ≠ 0x22#8) ∧
    (asmTrim (asmAfter syn a).cur ≠ [] →
      (∀ c ∈ asmTrim (asmAfter syn a).cur, asmDelim c = false) ∨ (asmTrim (asmAfter syn a).cur).length = 1 →
      asmLabel (asmAfter syn a).cur = true)
  noChar : ∀ a b, line = a ++ 0x27#8 :: b → (asmAfter syn a).mode ≠ .code
  noBlock : ∀ a b, line = a ++ 0x2f#8 :: 0x2a#8 :: b → (asmAfter syn a).mode ≠ .code

end Verif
