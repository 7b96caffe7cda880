import Verif.Model.Patch
/-
Model of the command line layer over processes, src/kpatch_user.c.
-/
namespace Verif

/-- `isspace` in the C locale. C library; used by strtoul and atoi at `src/kpatch_user.c:120`, `src/kpatch_user.c:337`. -/
def isSpace (c : Byte) : Bool := c = 32#8 || (9#8 ≤ c && c ≤ 13#8)

/-- A decimal digit, for strtoul. C library; used at `src/kpatch_user.c:337`. -/
def isDigit (c : Byte) : Bool := 48#8 ≤ c && c ≤ 57#8

/-- The number of a list of decimal digits. C library; part of strtoul at `src/kpatch_user.c:337`. -/
def digitsVal (ds : List Byte) : Nat := ds.foldl (fun n d => n * 10 + (d.toNat - 48)) 0

/-- `strtoul(s, &end, 10)`: the value and the rest of the string (C11 7.22.1.4: white space, a sign, digits; without
digits the end is the start; too big values give ULONG_MAX; with a minus sign the value is negated). Used at `src/kpatch_user.c:337`. -/
def strtoul10 (s : List Byte) : BitVec 64 × List Byte :=
  let body := s.dropWhile isSpace
  let neg := body.head? = some 45#8
  let digits := if body.head? = some 45#8 ∨ body.head? = some 43#8 then body.drop 1 else body
  let ds := digits.takeWhile isDigit
  if ds = [] then (0, s)
  else
    let v := digitsVal ds
    if v ≥ 2 ^ 64 then (BitVec.allOnes 64, digits.dropWhile isDigit)
    else (if neg then - BitVec.ofNat 64 v else BitVec.ofNat 64 v, digits.dropWhile isDigit)

/-- `pid = strtoul(...)`: conversion to int. `src/kpatch_user.c:337`. -/
def toInt32 (v : BitVec 64) : Int := (v.setWidth 32).toInt

/-- Whether an entry of /proc is skipped by its name, and its pid.  src/kpatch_user.c:334-343 (processes_do). -/
def procPid (self : Int) (name : List Byte) : Option Int :=
  if name.head? = some 46#8 then none
  else
    let r := strtoul10 name
    let pid := toInt32 r.1
    if pid = 0 ∨ r.2 ≠ [] then none
    else if pid = 1 ∨ pid = self then none
    else some pid

/-- The loop over /proc.  `exe pid` tells whether readlink of /proc/pid/exe worked; `cb done pid` is the result of the
callback, which may depend on the processes handled before (`done`, last first).  The visited processes in order and
the result.  src/kpatch_user.c:333-363 (processes_do). -/
def procLoop (self : Int) (exe : Int → Bool) (cb : List Int → Int → Int) : List (List Byte) → List Int → Int → List Int × Int
  | [], done, ret => (done.reverse, ret)
  | name :: names, done, ret =>
    match procPid self name with
    | none => procLoop self exe cb names done ret
    | some pid =>
      if exe pid then
        let rv := cb done pid
        let ret' := if rv < 0 then -1 else ret
        if rv = -2 then ((pid :: done).reverse, ret') else procLoop self exe cb names (pid :: done) ret'
      else procLoop self exe cb names done ret

/-- src/kpatch_user.c:316-366 (processes_do).  `proc = none`: /proc cannot be opened. -/
def processesDo (proc : Option (List (List Byte))) (self : Int) (exe : Int → Bool) (cb : List Int → Int → Int) (pid : Int) :
    List Int × Int :=
  if pid ≠ -1 then ([pid], cb [] pid)
  else
    match proc with
    | none => ([], -1)
    | some names => procLoop self exe cb names [] 0

/-- An option of a command after getopt. `src/kpatch_user.c:114`, `src/kpatch_user.c:180`, `src/kpatch_user.c:291`. -/
inductive CmdOpt where
  | help
  | pid (arg : List Byte)
  | patchId (arg : List Byte)
  | verbose
  | other

/-- The text "all". `src/kpatch_user.c:119`, `src/kpatch_user.c:185`. -/
def allText : List Byte := [97#8, 108#8, 108#8]

/-- `atoi`: C leaves the result open for values outside of int; the libc takes the low 32 bits of strtol. Used at `src/kpatch_user.c:120`, `src/kpatch_user.c:186`, `src/kpatch_user.c:294`. -/
def atoi (s : List Byte) : Int := toInt32 (strtoul10 s).1

/-- What a command does: a usage message with its exit code, or the work on processes. `src/kpatch_user.c:100-157`, `src/kpatch_user.c:172-209`, `src/kpatch_user.c:282-320`. -/
inductive CmdRun where
  | usage (ret : Int)
  | processes (pid : Int)
  | info (pid : Int)

/-- `usage_patch`, `usage_unpatch`, `usage_info`: the result is 0 with an error and -1 without one.
src/kpatch_user.c:76-85, 159-170, 211-222. -/
def usageRet (err : Bool) : Int := if err then 0 else -1

/-- The option loop of `libcare-ctl patch`: the pid and whether -p was there, or the result of the command when it ends
in the loop.  src/kpatch_user.c:114-126 (cmd_patch_user). -/
def patchOpts : List CmdOpt → Int × Bool → CmdRun ⊕ (Int × Bool)
  | [], st => .inr st
  | .help :: _, _ => .inl (.usage (usageRet false))
  | .pid arg :: os, st => patchOpts os (if arg = allText then st.1 else atoi arg, true)
  | _ :: _, _ => .inl (.usage (usageRet true))

/-- `libcare-ctl patch`.  src/kpatch_user.c:106-146 (cmd_patch_user). -/
def cmdPatch (argc : Nat) (opts : List CmdOpt) : CmdRun :=
  if argc < 4 then .usage (usageRet false)
  else
    match patchOpts opts (-1, false) with
    | .inl r => r
    | .inr (pid, set) => if set then .processes pid else .usage (usageRet true)

/-- src/kpatch_user.c:180-195 (cmd_unpatch_user). -/
def unpatchOpts : List CmdOpt → Int × Bool × Option (List Byte) → CmdRun ⊕ (Int × Bool × Option (List Byte))
  | [], st => .inr st
  | .help :: _, _ => .inl (.usage (usageRet false))
  | .pid arg :: os, st => unpatchOpts os (if arg = allText then st.1 else atoi arg, true, st.2.2)
  | .patchId arg :: os, st => unpatchOpts os (st.1, st.2.1, some arg)
  | _ :: _, _ => .inl (.usage (usageRet true))

/-- `libcare-ctl unpatch`.  src/kpatch_user.c:172-209 (cmd_unpatch_user). -/
def cmdUnpatch (argc : Nat) (opts : List CmdOpt) : CmdRun :=
  if argc < 4 then .usage (usageRet false)
  else
    match unpatchOpts opts (-1, false, none) with
    | .inl r => r
    | .inr (pid, set, id) => if set && id.isSome then .processes pid else .usage (usageRet true)

/-- `libcare-ctl info`: the pid, -1 without -p; `atoi` also for "all".  src/kpatch_user.c:287-309 (cmd_info_user). -/
def cmdInfo : List CmdOpt → Int → CmdRun
  | [], pid => .info pid
  | .pid arg :: os, _ => cmdInfo os (atoi arg)
  | .verbose :: os, pid => cmdInfo os pid
  | .help :: _, _ => .usage (usageRet false)
  | _ :: _, _ => .usage (usageRet true)

end Verif
