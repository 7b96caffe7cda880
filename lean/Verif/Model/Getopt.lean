import Verif.Model.Mem
/-
`getopt` of the C library, which `kpatch_make` and `libcare-dump` call: `src/kpatch_make.c:96`, `src/libcare-dump.c:162`.
-/
namespace Verif

/-- What `getopt` returns: an option with its argument (empty without one), or `?`.
`src/kpatch_make.c:96-97`, `src/libcare-dump.c:162-163`. -/
inductive OptEv
  | opt (c : Byte) (arg : List Byte)
  | bad
  deriving DecidableEq, Repr

/-- The kinds of options in the third argument of `getopt`: a letter, a letter with `:`, a letter with `::`.
`src/kpatch_make.c:96`, `src/libcare-dump.c:162`. -/
inductive OptKind
  | flag | value | maybe
  deriving DecidableEq, Repr

/-- The characters behind the `-` of one argument: the events, and the option whose value is the next argument of the command
line.  The value of an optional kind is the rest of the argument.  As used at `src/kpatch_make.c:96`, `src/libcare-dump.c:162`. -/
def optCluster (spec : Byte → Option OptKind) : List Byte → List OptEv × Option Byte
  | [] => ([], none)
  | c :: cs =>
    match spec c with
    | none => (.bad :: (optCluster spec cs).1, (optCluster spec cs).2)
    | some .flag => (.opt c [] :: (optCluster spec cs).1, (optCluster spec cs).2)
    | some .value => if cs = [] then ([], some c) else ([.opt c cs], none)
    | some .maybe => ([.opt c cs], none)

/-- `getopt`, called until it returns -1: the events in order, and the other arguments, which it moves behind the options and which
are at `argv[optind]` afterwards.  `POSIXLY_CORRECT` is not set.  As used at `src/kpatch_make.c:96`, `src/libcare-dump.c:162`. -/
def getopts (spec : Byte → Option OptKind) : List (List Byte) → List OptEv × List (List Byte)
  | [] => ([], [])
  | a :: as =>
    if a = [0x2d#8, 0x2d#8] then ([], as)
    else if a.head? = some 0x2d#8 ∧ a.length > 1 then
      match optCluster spec a.tail, as with
      | (evs, none), as => (evs ++ (getopts spec as).1, (getopts spec as).2)
      | (evs, some _), [] => (evs ++ [.bad], [])
      | (evs, some c), b :: bs => (evs ++ .opt c b :: (getopts spec bs).1, (getopts spec bs).2)
    else ((getopts spec as).1, a :: (getopts spec as).2)
termination_by as => as.length

end Verif
