import Verif.Model.Mem
/-
Command lines as users write them.
-/
namespace Verif

/-- The letters of options without a value, with a value, and with an optional value. -/
structure OptSyntax where
  flags : List Byte
  vals : List Byte
  maybes : List Byte

/-- No letter has two meanings, and `-` has none. -/
structure OptSyntax.Ok (S : OptSyntax) : Prop where
  fv : ∀ c ∈ S.flags, c ∉ S.vals
  fm : ∀ c ∈ S.flags, c ∉ S.maybes
  vm : ∀ c ∈ S.vals, c ∉ S.maybes
  dash : 0x2d#8 ∉ S.flags ∧ 0x2d#8 ∉ S.vals ∧ 0x2d#8 ∉ S.maybes

/-- The pieces of a command line, where `fs` are options without a value that are written in front: `-fsc value`, `-fscvalue`,
`-fsc` or `-fscvalue` with an optional value, `-fs`, an unknown option, any other word. -/
inductive ArgPiece
  | sep (fs : List Byte) (c : Byte) (v : List Byte)
  | glued (fs : List Byte) (c : Byte) (v : List Byte)
  | maybe (fs : List Byte) (c : Byte) (v : List Byte)
  | flags (fs : List Byte)
  | unknown (fs : List Byte) (c : Byte) (rest : List Byte)
  | word (w : List Byte)
  deriving DecidableEq

/-- As they are written. -/
def ArgPiece.render : ArgPiece → List (List Byte)
  | .sep fs c v => [0x2d#8 :: (fs ++ [c]), v]
  | .glued fs c v => [0x2d#8 :: (fs ++ c :: v)]
  | .maybe fs c v => [0x2d#8 :: (fs ++ c :: v)]
  | .flags fs => [0x2d#8 :: fs]
  | .unknown fs c rest => [0x2d#8 :: (fs ++ c :: rest)]
  | .word w => [w]

/-- A glued value is not empty; a word does not begin with `-` or is `-`; an unknown option is not `--`. -/
def ArgPiece.Valid (S : OptSyntax) : ArgPiece → Prop
  | .sep fs c _ => (∀ f ∈ fs, f ∈ S.flags) ∧ c ∈ S.vals
  | .glued fs c v => (∀ f ∈ fs, f ∈ S.flags) ∧ c ∈ S.vals ∧ v ≠ []
  | .maybe fs c _ => (∀ f ∈ fs, f ∈ S.flags) ∧ c ∈ S.maybes
  | .flags fs => (∀ f ∈ fs, f ∈ S.flags) ∧ fs ≠ []
  | .unknown fs c rest => (∀ f ∈ fs, f ∈ S.flags) ∧ (c ∉ S.flags ∧ c ∉ S.vals ∧ c ∉ S.maybes) ∧ ¬ (fs = [] ∧ c = 0x2d#8 ∧ rest = [])
  | .word w => w.head? ≠ some 0x2d#8 ∨ w = [0x2d#8]

/-- How a command line ends: with its last piece, with `--` and words that may be anything, or with an option that lacks its value. -/
inductive CmdTail
  | nothing
  | words (ws : List (List Byte))
  | missing (fs : List Byte) (c : Byte)

def CmdTail.Valid (S : OptSyntax) : CmdTail → Prop
  | .missing fs c => (∀ f ∈ fs, f ∈ S.flags) ∧ c ∈ S.vals
  | _ => True

/-- The whole command line. -/
def cmdLine (ps : List ArgPiece) (tail : CmdTail) : List (List Byte) :=
  ps.flatMap ArgPiece.render ++
    (match tail with | .nothing => [] | .words ws => [0x2d#8, 0x2d#8] :: ws | .missing fs c => [0x2d#8 :: (fs ++ [c])])

/-- All options exist and have their value. -/
def Known (ps : List ArgPiece) (tail : CmdTail) : Prop :=
  (∀ p ∈ ps, ∀ fs c r, p ≠ .unknown fs c r) ∧ ∀ fs c, tail ≠ .missing fs c

/-- The values given for the option `c`, in order. -/
def givenVals (c : Byte) (ps : List ArgPiece) : List (List Byte) :=
  ps.filterMap fun p => match p with
    | .sep _ d v => if d = c then some v else none
    | .glued _ d v => if d = c then some v else none
    | .maybe _ d v => if d = c then some v else none
    | _ => none

/-- The words, in order. -/
def givenWords (ps : List ArgPiece) (tail : CmdTail) : List (List Byte) :=
  (ps.filterMap fun p => match p with | .word w => some w | _ => none) ++ (match tail with | .words ws => ws | _ => [])

end Verif
