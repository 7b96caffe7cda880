import Verif.Model.GenCmd
import Verif.Model.Kpstr
/-
Command lines of `kpatch_gensrc` as users write them.
-/
namespace Verif

/-- The long names.  The one of the output is what the program has. -/
def GenOpt.name : GenOpt → List Byte
  | .debug => lit "debug" | .os => lit "os" | .arch => lit "arch" | .input => lit "input" | .output => lit "ouput"
  | .test => lit "test-mode" | .filter => lit "dbg-filter" | .ehFrame => lit "dbg-filter-eh-frame"
  | .exceptTable => lit "dbg-filter-gcc-except-table" | .cfi => lit "dbg-filter-cfi" | .newlines => lit "dbg-filter-emit-newlines"
  | .ignore => lit "ignore-changes" | .unlink => lit "unlink-symbols" | .adapt => lit "must-adapt"
  | .gotpcrel => lit "force-gotpcrel" | .global => lit "force-global"

/-- The letters: d, O, a, i, o with a value and f without. -/
def GenOpt.letter : GenOpt → Option Byte
  | .debug => some 0x64#8 | .os => some 0x4f#8 | .arch => some 0x61#8 | .input => some 0x69#8 | .output => some 0x6f#8
  | .filter => some 0x66#8 | _ => none

/-- Which options are given with a value. -/
def GenOpt.valued (o : GenOpt) : Prop := o ∈ [GenOpt.debug, .os, .arch, .input, .output, .ignore, .unlink, .adapt]

/-- `s` is the name of the option, or the beginning of its name and of no other. -/
def OptName (o : GenOpt) (s : List Byte) : Prop := s = o.name ∨ (s <+: o.name ∧ ∀ o' : GenOpt, s <+: o'.name → o' = o)

/-- The pieces of a command line, where `n` times the letter f may be written in front: `-ffi value`, `-ffivalue`, `-ff`,
`--input value`, `--input=value`, `--test-mode`, another word; and what is not understood. -/
inductive GenPiece
  | sep (n : Nat) (o : GenOpt) (c : Byte) (v : List Byte)
  | glued (n : Nat) (o : GenOpt) (c : Byte) (v : List Byte)
  | flags (n : Nat)
  | longSep (o : GenOpt) (s v : List Byte)
  | longEq (o : GenOpt) (s v : List Byte)
  | longFlag (o : GenOpt) (s : List Byte)
  | word (w : List Byte)
  | badLetter (n : Nat) (c : Byte) (rest : List Byte)
  | badLong (s : List Byte)
  | badValue (o : GenOpt) (s v : List Byte)

def GenPiece.render : GenPiece → List (List Byte)
  | .sep n _ c v => [0x2d#8 :: (List.replicate n 0x66#8 ++ [c]), v]
  | .glued n _ c v => [0x2d#8 :: (List.replicate n 0x66#8 ++ c :: v)]
  | .flags n => [0x2d#8 :: List.replicate n 0x66#8]
  | .longSep _ s v => [0x2d#8 :: 0x2d#8 :: s, v]
  | .longEq _ s v => [0x2d#8 :: 0x2d#8 :: (s ++ 0x3d#8 :: v)]
  | .longFlag _ s => [0x2d#8 :: 0x2d#8 :: s]
  | .word w => [w]
  | .badLetter n c rest => [0x2d#8 :: (List.replicate n 0x66#8 ++ c :: rest)]
  | .badLong s => [0x2d#8 :: 0x2d#8 :: s]
  | .badValue _ s v => [0x2d#8 :: 0x2d#8 :: (s ++ 0x3d#8 :: v)]

def GenPiece.Valid : GenPiece → Prop
  | .sep _ o c _ => o.letter = some c ∧ o.valued
  | .glued _ o c v => o.letter = some c ∧ o.valued ∧ v ≠ []
  | .flags n => 0 < n
  | .longSep o s _ => OptName o s ∧ s ≠ [] ∧ o.valued
  | .longEq o s _ => OptName o s ∧ s ≠ [] ∧ o.valued
  | .longFlag o s => OptName o s ∧ s ≠ [] ∧ ¬ o.valued
  | .word w => w.head? ≠ some 0x2d#8 ∨ w = [0x2d#8]
  | .badLetter n c _ => (∀ o : GenOpt, o.letter ≠ some c) ∧ (n = 0 → c ≠ 0x2d#8)
  | .badLong s => (∀ o, ¬ OptName o s) ∧ s ≠ [] ∧ 0x3d#8 ∉ s
  | .badValue o s _ => OptName o s ∧ s ≠ [] ∧ ¬ o.valued

/-- Is it understood? -/
def GenPiece.known : GenPiece → Bool
  | .badLetter _ _ _ | .badLong _ | .badValue _ _ _ => false
  | _ => true

/-- The options that it gives, with their values. -/
def GenPiece.opts : GenPiece → List (GenOpt × List Byte)
  | .sep n o _ v | .glued n o _ v => List.replicate n (.filter, []) ++ [(o, v)]
  | .flags n => List.replicate n (.filter, [])
  | .longSep o _ v | .longEq o _ v => [(o, v)]
  | .longFlag o _ => [(o, [])]
  | _ => []

def GenPiece.words : GenPiece → List (List Byte)
  | .word w => [w]
  | _ => []

/-- How it ends: with the last piece, with `--` and words, or with an option that lacks its value. -/
inductive GenTail
  | nothing
  | dashes (ws : List (List Byte))
  | missing (n : Nat) (o : GenOpt) (c : Byte)
  | missingLong (o : GenOpt) (s : List Byte)

def GenTail.render : GenTail → List (List Byte)
  | .nothing => []
  | .dashes ws => [0x2d#8, 0x2d#8] :: ws
  | .missing n _ c => [0x2d#8 :: (List.replicate n 0x66#8 ++ [c])]
  | .missingLong _ s => [0x2d#8 :: 0x2d#8 :: s]

def GenTail.Valid : GenTail → Prop
  | .missing _ o c => o.letter = some c ∧ o.valued
  | .missingLong o s => OptName o s ∧ s ≠ [] ∧ o.valued
  | _ => True

def GenTail.known : GenTail → Bool
  | .missing _ _ _ | .missingLong _ _ => false
  | _ => true

def GenTail.words : GenTail → List (List Byte)
  | .dashes ws => ws
  | _ => []

/-- The whole command line. -/
def genArgs (ps : List GenPiece) (t : GenTail) : List (List Byte) := ps.flatMap GenPiece.render ++ t.render

/-- The options of a command line. -/
def optsOf (ps : List GenPiece) : List (GenOpt × List Byte) := ps.flatMap GenPiece.opts

/-- The values that are given for an option, in order. -/
def optVals (o : GenOpt) (os : List (GenOpt × List Byte)) : List (List Byte) := os.filterMap fun p => if p.1 = o then some p.2 else none

/-- Is the option given? -/
def optGiven (o : GenOpt) (os : List (GenOpt × List Byte)) : Bool := os.any fun p => p.1 = o

/-- The last of the values for `o` that is one of the two; the first of them means yes. -/
def lastOf (o : GenOpt) (yes no : List Byte) (os : List (GenOpt × List Byte)) : Option Bool :=
  ((optVals o os).filterMap fun v => if v = yes then some true else if v = no then some false else none).getLast?

/-- What the options ask for, with the texts of the inputs. -/
def askedFor (os : List (GenOpt × List Byte)) (texts : List (List Byte)) : GenSet where
  filter := optGiven .filter os
  ehFrame := optGiven .ehFrame os
  exceptTable := optGiven .exceptTable os
  cfi := optGiven .cfi os
  newlines := optGiven .newlines os
  gotpcrel := optGiven .gotpcrel os
  global := optGiven .global os
  test := optGiven .test os
  rhel5 := (lastOf .os (lit "rhel5") (lit "rhel6") os).getD false
  bits32 := (lastOf .arch (lit "i686") (lit "x86_64") os).getD false
  ignore := optVals .ignore os
  unlink := optVals .unlink os
  adapt := optVals .adapt os
  inputs := texts
  out := (optVals .output os).getLast?

end Verif
