import Verif.Model.PatchFile
import Verif.Model.Getopt
/-
The command `kpatch_make`: its command line, and what it does to files.  Models `main` of `src/kpatch_make.c` 84-174.
-/
namespace Verif

/-- The options of `kpatch_make`: `"db:o:i:v:s:"`, `src/kpatch_make.c:96`. -/
def makeSpec (c : Byte) : Option OptKind :=
  if c = 0x64#8 then some .flag
  else if c = 0x62#8 ∨ c = 0x6f#8 ∨ c = 0x69#8 ∨ c = 0x76#8 ∨ c = 0x73#8 then some .value
  else none

/-- The variables that the loop over the options sets. `src/kpatch_make.c:92-94` (main). -/
structure MakeOpts where
  buildid : Option (List Byte) := none
  output : Option (List Byte) := none
  patchId : Option (List Byte) := none
  deriving DecidableEq, Repr

/-- The loop over the options, `src/kpatch_make.c:96-125` (main): the variables, or the exit status (255 for `ret = -1`, 1 for
`usage`).  The options `v` and `s` are known to `getopt` but not to the loop. -/
def makeLoop : List OptEv → MakeOpts → Except Nat MakeOpts
  | [], o => .ok o
  | .bad :: _, _ => .error 1
  | .opt c arg :: evs, o =>
    if c = 0x64#8 then makeLoop evs o
    else if c = 0x62#8 then
      if o.buildid.isSome then .error 255 else makeLoop evs { o with buildid := some arg }
    else if c = 0x6f#8 then
      if o.output.isSome then .error 255 else makeLoop evs { o with output := some arg }
    else if c = 0x69#8 then
      if o.patchId.isSome then .error 255 else makeLoop evs { o with patchId := some arg }
    else .error 1

/-- What a run of the command leaves: the exit status, the files, and what was written to the standard output other than messages.
`src/kpatch_make.c:84-174` (main). -/
structure MakeRun where
  status : Nat
  files : List Byte → Option (List Byte)
  stdout : List Byte

/-- `main` of `kpatch_make`, `src/kpatch_make.c` 84-174.  `files`: the content of the files that can be read; `canWrite`: the file
can be opened for writing; `w1`, `w2`: the two calls of `write`.  A file of length 0 cannot be mapped.  A build id of the wrong length is
only reported (133-135).  If the output is the input, the input is cut to nothing while it is mapped: `reread` is what its
pages give to the second `write` then (any bytes); two names are taken to be the same file only if they are equal. -/
def makeMain (files : List Byte → Option (List Byte)) (canWrite : List Byte → Bool) (w1 w2 : WriteOracle) (time : Nat) (reread : List Byte)
    (args : List (List Byte)) : MakeRun :=
  let fail (st : Nat) : MakeRun := ⟨st, files, []⟩
  match makeLoop (getopts makeSpec args).1 {} with
  | .error st => fail st
  | .ok o =>
    match o.buildid, o.patchId, (getopts makeSpec args).2 with
    | some bid, some pid, input :: _ =>
      if pid = [] then fail 1
      else
        match files input with
        | none => fail 255
        | some payload =>
          if payload = [] then fail 255
          else
            match o.output with
            | none =>
              let r := makeFile w1 w2 bid pid time payload
              ⟨if r.2 then 0 else 255, files, r.1⟩
            | some out =>
              if canWrite out then
                let r := makeFile w1 w2 bid pid time (if out = input then reread else payload)
                ⟨if r.2 then 0 else 255, fun n => if n = out then some r.1 else files n, []⟩
              else fail 255
    | _, _, _ => fail 1

end Verif
