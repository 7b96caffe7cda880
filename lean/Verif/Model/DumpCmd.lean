import Verif.Model.MakeCmd
/-
The command `libcare-dump`: its command line, what it prints and what it does to files.  Models `src/libcare-dump.c` 46-207.
-/
namespace Verif

/-- The options of `libcare-dump`: `"H::i:o:c::"`, `src/libcare-dump.c:162`. -/
def dumpSpec (c : Byte) : Option OptKind :=
  if c = 0x69#8 ∨ c = 0x6f#8 then some .value
  else if c = 0x48#8 ∨ c = 0x63#8 then some .maybe
  else none

/-- The variables that the loop over the options sets. `src/libcare-dump.c:157-160` (main). -/
structure DumpOpts where
  convert : Bool := false
  header : Bool := false
  input : Option (List Byte) := none
  output : Option (List Byte) := none
  deriving DecidableEq, Repr

/-- The loop over the options, `none` when it ends with the usage. `src/libcare-dump.c:162-182` (main). -/
def dumpLoop : List OptEv → DumpOpts → Option DumpOpts
  | [], o => some o
  | .bad :: _, _ => none
  | .opt c arg :: evs, o =>
    if c = 0x48#8 then dumpLoop evs { o with header := true }
    else if c = 0x69#8 then dumpLoop evs { o with input := some arg }
    else if c = 0x6f#8 then dumpLoop evs { o with output := some arg }
    else if c = 0x63#8 then dumpLoop evs { o with convert := true }
    else none

/-- What is printed besides messages: nothing, the lines with the name, the magic, the id and the build id, or something
undefined, when a string does not end in the header. `src/libcare-dump.c:77-80` (kpatch_dump_kpatch_header). -/
inductive DumpOut
  | nothing
  | header (name magic id bid : List Byte)
  | undefined
  deriving DecidableEq, Repr

/-- `%s` of a field: the bytes from its begin to the next NUL, which may be in a later field; `none` if there is none in the header.
`src/libcare-dump.c:78-80` (kpatch_dump_kpatch_header). -/
def headerStr (file : List Byte) (off : Nat) : Option (List Byte) :=
  let bs := (file.take hdrSize).drop off
  if 0#8 ∈ bs then some (cstr bs) else none

/-- `kpatch_dump_kpatch_header`, `src/libcare-dump.c:46-87`: the exit status and what is printed.  `read` gives all bytes of the
header. Files are below 2 GiB. -/
def dumpHeader (files : List Byte → Option (List Byte)) (name : List Byte) : Nat × DumpOut :=
  match files name with
  | none => (255, .nothing)
  | some f =>
    if f.length ≤ hdrSize then (255, .nothing)
    else
      match headerStr f 0, headerStr f 8, headerStr f 88 with
      | some m, some i, some b => (0, .header name m i b)
      | _, _, _ => (0, .undefined)

/-- What a run of the command leaves. `src/libcare-dump.c:153-207` (main). -/
structure DumpRun where
  status : Nat
  files : List Byte → Option (List Byte)
  out : DumpOut

/-- `kpatch_convert_to_elf`, `src/libcare-dump.c:89-151`: `w` is the call of `write`.  If the output is the input, it is cut to
nothing while it is mapped, and `write` cannot read the pages any more; two names are taken to be the same file only if they
are equal. Files are below 2 GiB. -/
def convertToElf (files : List Byte → Option (List Byte)) (canWrite : List Byte → Bool) (w : WriteOracle) (input output : List Byte) : DumpRun :=
  match files input with
  | none => ⟨255, files, .nothing⟩
  | some f =>
    match dumpElf f with
    | none => ⟨255, files, .nothing⟩
    | some elf =>
      if canWrite output then
        if output = input then ⟨255, fun n => if n = output then some [] else files n, .nothing⟩
        else ⟨if wroteRet w elf = (elf.length : Int) then 0 else 255, fun n => if n = output then some (wrote w elf) else files n, .nothing⟩
      else ⟨255, files, .nothing⟩

/-- `main` of `libcare-dump`, `src/libcare-dump.c:153-207`.  Other words are not looked at. -/
def dumpMain (files : List Byte → Option (List Byte)) (canWrite : List Byte → Bool) (w : WriteOracle) (args : List (List Byte)) : DumpRun :=
  match dumpLoop (getopts dumpSpec args).1 {} with
  | none => ⟨255, files, .nothing⟩
  | some o =>
    match o.input with
    | none => ⟨255, files, .nothing⟩
    | some input =>
      if o.header then ⟨(dumpHeader files input).1, files, (dumpHeader files input).2⟩
      else
        match o.output with
        | none => ⟨255, files, .nothing⟩
        | some output => if o.convert then convertToElf files canWrite w input output else ⟨255, files, .nothing⟩

end Verif
