import Verif.Model.Getopt
/-
The command line of `kpatch_strip`.  Models `main` of `src/kpatch_strip.c` 963-1041 and `kpatch_open_elf` (66-83).
-/
namespace Verif

/-- The long option that an argument `--name` is: the one of this name, or else the only one that begins so; one with `=` is
refused, as none takes a value.  `getopt_long` of the C library as used at `src/kpatch_strip.c:971`. -/
def longOpt (names : List (List Byte × Byte)) (s : List Byte) : Option Byte :=
  if 0x3d#8 ∈ s then none
  else
    match names.find? fun p => p.1 = s with
    | some p => some p.2
    | none =>
      match names.filter fun p => s.isPrefixOf p.1 with
      | [p] => some p.2
      | _ => none

/-- `getopt_long` of the C library with a `+` in front of the options, called until it returns -1: it stops at the first other
word.  `src/kpatch_strip.c:971`. -/
def getoptsLong (spec : Byte → Option OptKind) (names : List (List Byte × Byte)) : List (List Byte) → List OptEv × List (List Byte)
  | [] => ([], [])
  | a :: as =>
    if a = [0x2d#8, 0x2d#8] then ([], as)
    else if a.take 2 = [0x2d#8, 0x2d#8] then
      ((match longOpt names (a.drop 2) with | some c => .opt c [] | none => .bad) :: (getoptsLong spec names as).1, (getoptsLong spec names as).2)
    else if a.head? = some 0x2d#8 ∧ a.length > 1 then
      match optCluster spec a.tail, as with
      | (evs, none), as => (evs ++ (getoptsLong spec names as).1, (getoptsLong spec names as).2)
      | (evs, some _), [] => (evs ++ [.bad], [])
      | (evs, some c), b :: bs => (evs ++ .opt c b :: (getoptsLong spec names bs).1, (getoptsLong spec names bs).2)
    else ([], a :: as)
termination_by as => as.length

/-- `"+o:sru"`, `src/kpatch_strip.c:971`. -/
def stripSpec (c : Byte) : Option OptKind :=
  if c = 0x73#8 ∨ c = 0x72#8 ∨ c = 0x75#8 then some .flag
  else if c = 0x6f#8 then some .value
  else none

/-- `long_opts`: strip, rel-fixup, undo-link. `src/kpatch_strip.c:948-953`. -/
def stripLong : List (List Byte × Byte) :=
  [([0x73, 0x74, 0x72, 0x69, 0x70], 0x73#8), ([0x72, 0x65, 0x6c, 0x2d, 0x66, 0x69, 0x78, 0x75, 0x70], 0x72#8),
   ([0x75, 0x6e, 0x64, 0x6f, 0x2d, 0x6c, 0x69, 0x6e, 0x6b], 0x75#8)]

/-- The actions that a mode stands for. `src/kpatch_strip.c:47-51`, `src/kpatch_strip.c:1020-1032` (main). -/
inductive StripAct
  | strip | relFixup | undoLink
  deriving DecidableEq, Repr

/-- The loop over the options: the mode in the end, or `none` when it returns with the usage.  `src/kpatch_strip.c:955-961`
(SET_MODE), `src/kpatch_strip.c:971-985` (main). -/
def stripLoop : List OptEv → Option StripAct → Option (Option StripAct)
  | [], m => some m
  | .bad :: _, _ => none
  | .opt c _ :: evs, m =>
    if c = 0x73#8 then (if m.isSome then none else stripLoop evs (some .strip))
    else if c = 0x72#8 then (if m.isSome then none else stripLoop evs (some .relFixup))
    else if c = 0x75#8 then (if m.isSome then none else stripLoop evs (some .undoLink))
    else none

/-- What happens to files: a file is opened for reading and writing, created if need be; an action runs on two files.
`src/kpatch_strip.c:1008-1032` (main). -/
inductive StripEff
  | opened (file : List Byte) (create : Bool)
  | did (act : StripAct) (file1 file2 : List Byte)
  deriving DecidableEq, Repr

/-- `main` of `kpatch_strip`, `src/kpatch_strip.c:963-1041`: the exit status and what happened to files.  `canOpen`: the file can be
opened and `elf_begin` succeeds; `ret`: the exit status that the result of an action gives. -/
def stripMain (canOpen : List Byte → Bool) (ret : StripAct → List Byte → List Byte → Nat) (args : List (List Byte)) : Nat × List StripEff :=
  match stripLoop (getoptsLong stripSpec stripLong args).1 none with
  | none | some none => (255, [])
  | some (some m) =>
    match (getoptsLong stripSpec stripLong args).2 with
    | [a, b] =>
      if canOpen a then
        if canOpen b then (ret m a b, [.opened a false, .opened b (m == .strip), .did m a b])
        else (255, [.opened a false])
      else (255, [])
    | _ => (255, [])

end Verif
