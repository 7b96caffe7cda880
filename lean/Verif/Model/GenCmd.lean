import Verif.Model.Mem
/-
The command line of `kpatch_gensrc`.  Models `main` of `src/kpatch_gensrc.c` 1674-1800, up to the work itself.
-/
namespace Verif

/-- The options.  `src/kpatch_gensrc.c:1643-1653`, `1655-1672` (long_opts). -/
inductive GenOpt
  | debug | os | arch | input | output | test | filter | ehFrame | exceptTable | cfi | newlines | ignore | unlink | adapt
  | gotpcrel | global
  deriving DecidableEq, Repr

/-- The names of the long options, one of which is `ouput`.  `src/kpatch_gensrc.c:1655-1672` (long_opts). -/
def genLong : List (List Byte × GenOpt) :=
  [([0x64, 0x65, 0x62, 0x75, 0x67], .debug), ([0x6f, 0x73], .os), ([0x61, 0x72, 0x63, 0x68], .arch),
   ([0x69, 0x6e, 0x70, 0x75, 0x74], .input), ([0x6f, 0x75, 0x70, 0x75, 0x74], .output),
   ([0x74, 0x65, 0x73, 0x74, 0x2d, 0x6d, 0x6f, 0x64, 0x65], .test),
   ([0x64, 0x62, 0x67, 0x2d, 0x66, 0x69, 0x6c, 0x74, 0x65, 0x72], .filter),
   ([0x64, 0x62, 0x67, 0x2d, 0x66, 0x69, 0x6c, 0x74, 0x65, 0x72, 0x2d, 0x65, 0x68, 0x2d, 0x66, 0x72, 0x61, 0x6d, 0x65], .ehFrame),
   ([0x64, 0x62, 0x67, 0x2d, 0x66, 0x69, 0x6c, 0x74, 0x65, 0x72, 0x2d, 0x67, 0x63, 0x63, 0x2d, 0x65, 0x78, 0x63, 0x65, 0x70, 0x74,
      0x2d, 0x74, 0x61, 0x62, 0x6c, 0x65], .exceptTable),
   ([0x64, 0x62, 0x67, 0x2d, 0x66, 0x69, 0x6c, 0x74, 0x65, 0x72, 0x2d, 0x63, 0x66, 0x69], .cfi),
   ([0x64, 0x62, 0x67, 0x2d, 0x66, 0x69, 0x6c, 0x74, 0x65, 0x72, 0x2d, 0x65, 0x6d, 0x69, 0x74, 0x2d, 0x6e, 0x65, 0x77, 0x6c, 0x69,
      0x6e, 0x65, 0x73], .newlines),
   ([0x69, 0x67, 0x6e, 0x6f, 0x72, 0x65, 0x2d, 0x63, 0x68, 0x61, 0x6e, 0x67, 0x65, 0x73], .ignore),
   ([0x75, 0x6e, 0x6c, 0x69, 0x6e, 0x6b, 0x2d, 0x73, 0x79, 0x6d, 0x62, 0x6f, 0x6c, 0x73], .unlink),
   ([0x6d, 0x75, 0x73, 0x74, 0x2d, 0x61, 0x64, 0x61, 0x70, 0x74], .adapt),
   ([0x66, 0x6f, 0x72, 0x63, 0x65, 0x2d, 0x67, 0x6f, 0x74, 0x70, 0x63, 0x72, 0x65, 0x6c], .gotpcrel),
   ([0x66, 0x6f, 0x72, 0x63, 0x65, 0x2d, 0x67, 0x6c, 0x6f, 0x62, 0x61, 0x6c], .global)]

/-- Which options have a value.  `src/kpatch_gensrc.c:1655-1672` (long_opts). -/
def GenOpt.hasArg : GenOpt → Bool
  | .debug | .os | .arch | .input | .output | .ignore | .unlink | .adapt => true
  | _ => false

/-- `"d:O:i:o:a:f"`.  `src/kpatch_gensrc.c:1688` (main). -/
def genShort (c : Byte) : Option GenOpt :=
  if c = 0x64#8 then some .debug else if c = 0x4f#8 then some .os else if c = 0x69#8 then some .input
  else if c = 0x6f#8 then some .output else if c = 0x61#8 then some .arch else if c = 0x66#8 then some .filter else none

/-- What `getopt_long` returns: an option with its value (empty without one), or `?`.  `src/kpatch_gensrc.c:1688-1753` (main). -/
inductive GenEv
  | opt (o : GenOpt) (v : List Byte)
  | bad
  deriving DecidableEq, Repr

/-- The letters behind `-`: the events, and the option whose value is the next argument.  `getopt_long` of the C library as used at
`src/kpatch_gensrc.c:1688`. -/
def genCluster : List Byte → List GenEv × Option GenOpt
  | [] => ([], none)
  | c :: cs =>
    match genShort c with
    | none => (.bad :: (genCluster cs).1, (genCluster cs).2)
    | some o =>
      if o.hasArg then (if cs = [] then ([], some o) else ([.opt o cs], none))
      else (.opt o [] :: (genCluster cs).1, (genCluster cs).2)

/-- The long option of this name, or else the only one whose name begins so.  `getopt_long` of the C library as used at
`src/kpatch_gensrc.c:1688`. -/
def genFind (s : List Byte) : Option GenOpt :=
  match genLong.find? fun p => p.1 = s with
  | some p => some p.2
  | none =>
    match genLong.filter fun p => s.isPrefixOf p.1 with
    | [p] => some p.2
    | _ => none

/-- The text behind `--`: an event, or the option whose value is the next argument.  `getopt_long` of the C library as used at
`src/kpatch_gensrc.c:1688`. -/
def genLongEv (s : List Byte) : GenEv ⊕ GenOpt :=
  let name := s.takeWhile fun c => c ≠ 0x3d#8
  match genFind name, s.drop name.length with
  | none, _ => .inl .bad
  | some o, [] => if o.hasArg then .inr o else .inl (.opt o [])
  | some o, _ :: v => if o.hasArg then .inl (.opt o v) else .inl .bad

/-- `getopt_long`, called until it returns -1: the events, and the other arguments, which it moves behind the options.
`POSIXLY_CORRECT` is not set.  C library; used at `src/kpatch_gensrc.c:1688`. -/
def genGetopts : List (List Byte) → List GenEv × List (List Byte)
  | [] => ([], [])
  | a :: as =>
    if a = [0x2d#8, 0x2d#8] then ([], as)
    else if a.take 2 = [0x2d#8, 0x2d#8] then
      match genLongEv (a.drop 2), as with
      | .inl e, as => (e :: (genGetopts as).1, (genGetopts as).2)
      | .inr _, [] => ([.bad], [])
      | .inr o, b :: bs => (.opt o b :: (genGetopts bs).1, (genGetopts bs).2)
    else if a.head? = some 0x2d#8 ∧ a.length > 1 then
      match genCluster a.tail, as with
      | (evs, none), as => (evs ++ (genGetopts as).1, (genGetopts as).2)
      | (evs, some _), [] => (evs ++ [.bad], [])
      | (evs, some o), b :: bs => (evs ++ .opt o b :: (genGetopts bs).1, (genGetopts bs).2)
    else ((genGetopts as).1, a :: (genGetopts as).2)
termination_by as => as.length

/-- The files of the system: what can be read under a name.  `src/kpatch_io.c:43-105` (read_file, create_file). -/
abbrev GenFs := List Byte → Option (List Byte)

/-- What the loop over the options has set: the switches, the values of the options with lists (`parse_sym_list` is modelled apart), the
inputs as they were read, the output.  `src/kpatch_gensrc.c:25-53`, `1676-1687` (main). -/
structure GenSet where
  filter : Bool := false
  ehFrame : Bool := false
  exceptTable : Bool := false
  cfi : Bool := false
  newlines : Bool := false
  gotpcrel : Bool := false
  global : Bool := false
  test : Bool := false
  rhel5 : Bool := false
  bits32 : Bool := false
  ignore : List (List Byte) := []
  unlink : List (List Byte) := []
  adapt : List (List Byte) := []
  inputs : List (List Byte) := []
  out : Option (List Byte) := none
  deriving DecidableEq, Repr

/-- One option; `none`: kpfatal, the program ends.  The name `-` for the standard streams and the level of messages are not modelled.
`create`: the file can be created.  `src/kpatch_gensrc.c:1689-1753` (main), `src/kpatch_io.c:43-105` (read_file, create_file). -/
def genStep (create : List Byte → Bool) (fs : GenFs) (s : GenSet) (o : GenOpt) (v : List Byte) : Option (GenFs × GenSet) :=
  match o with
  | .debug => some (fs, s)
  | .input => if s.inputs.length ≥ 2 then none else (fs v).map fun c => (fs, { s with inputs := s.inputs ++ [c] })
  | .output => if create v then some (fun x => if x = v then some [] else fs x, { s with out := some v }) else none
  | .os => some (fs, if v = [0x72, 0x68, 0x65, 0x6c, 0x35] then { s with rhel5 := true }
      else if v = [0x72, 0x68, 0x65, 0x6c, 0x36] then { s with rhel5 := false } else s)
  | .arch => some (fs, if v = [0x69, 0x36, 0x38, 0x36] then { s with bits32 := true }
      else if v = [0x78, 0x38, 0x36, 0x5f, 0x36, 0x34] then { s with bits32 := false } else s)
  | .test => some (fs, { s with test := true })
  | .filter => some (fs, { s with filter := true })
  | .ehFrame => some (fs, { s with ehFrame := true })
  | .exceptTable => some (fs, { s with exceptTable := true })
  | .cfi => some (fs, { s with cfi := true })
  | .newlines => some (fs, { s with newlines := true })
  | .ignore => some (fs, { s with ignore := s.ignore ++ [v] })
  | .unlink => some (fs, { s with unlink := s.unlink ++ [v] })
  | .adapt => some (fs, { s with adapt := s.adapt ++ [v] })
  | .gotpcrel => some (fs, { s with gotpcrel := true })
  | .global => some (fs, { s with global := true })

/-- The loop over the options: the files, and the exit status if it ends the program, or else what is set.
`src/kpatch_gensrc.c:1688-1753` (main). -/
def genLoop (create : List Byte → Bool) : List GenEv → GenFs → GenSet → GenFs × (Nat ⊕ GenSet)
  | [], fs, s => (fs, .inr s)
  | .bad :: _, fs, _ => (fs, .inl 255)
  | .opt o v :: evs, fs, s =>
    match genStep create fs s o v with
    | none => (fs, .inl 1)
    | some (fs', s') => genLoop create evs fs' s'

/-- What is done: the debug information of a text is filtered, or a patch is generated from two texts, into the output.
`src/kpatch_gensrc.c:1764-1788` (main). -/
inductive GenAct
  | filtered (text : List Byte) (out : List Byte) (set : GenSet)
  | generated (text0 text1 : List Byte) (out : List Byte) (set : GenSet)
  deriving DecidableEq, Repr

/-- `main` of `kpatch_gensrc`, `src/kpatch_gensrc.c:1674-1800`: the exit status, the files before the work, and the work. -/
def genMain (create : List Byte → Bool) (fs : GenFs) (args : List (List Byte)) : Nat × GenFs × Option GenAct :=
  match genLoop create (genGetopts args).1 fs {} with
  | (fs', .inl st) => (st, fs', none)
  | (fs', .inr s) =>
    match s.out with
    | none => (255, fs', none)
    | some out =>
      if (genGetopts args).2 ≠ [] then (255, fs', none)
      else if s.filter then
        match s.inputs with
        | [] => (1, fs', none)
        | a :: _ => (0, fs', some (.filtered a out s))
      else
        match s.inputs with
        | [a, b] => (0, fs', some (.generated a b out s))
        | _ => (1, fs', none)

end Verif
