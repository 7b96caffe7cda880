import Verif.Model.Server
import Verif.Model.Commands
import Verif.Model.Kpstr
/-
Model of what the server does between its connections: the commands it carries out itself, the program it starts and
the patch storage it remembers, `src/libcare-server.c`, and of the order of the steps of the patch command with the
scripts of the storage, `src/kpatch_patch.c` 498-605 (process_patch), `src/kpatch_storage.c` 467-522.
-/
namespace Verif

/-! ## Scripts of the storage and the steps of the patch command -/

/-- What `access(path, X_OK)` finds. `src/kpatch_storage.c:481-484` (storage_execute_script). -/
inductive ScriptAccess where
  | ok
  | absent
  | other
deriving DecidableEq

/-- What the macros `WIFEXITED`, `WIFSIGNALED` see in the variable `status`. `src/kpatch_storage.c:500-503`. -/
inductive WaitStatus where
  | exited (code : BitVec 8)
  | signalled (sig : Nat)
  | neither
deriving DecidableEq

/-- A script and what comes of it: `failed` when waitpid (or, before it, fork) fails, and then `status` is what happens to
be in the variable; `pid` is what a waitpid that works returns. `src/kpatch_storage.c:488-506`. -/
structure Script where
  access : ScriptAccess
  failed : Bool
  status : WaitStatus
  pid : Nat

/-- `dir`: the storage is a directory.  `src/kpatch_storage.c:467-512` (storage_execute_script). -/
def executeScript (dir : Bool) (s : Script) : Int :=
  if !dir then 0
  else
    match s.access with
    | .absent => 0
    | .other => -1
    | .ok =>
      match s.status with
      | .exited c => - (c.toNat : Int)
      | .signalled n => - (n : Int)
      | .neither => if s.failed then 1 else - (s.pid : Int)

/-- What the patch command does with the target, in order. `src/kpatch_patch.c:498-605` (process_patch). -/
inductive PatchEv where
  | attached
  | before
  | applied
  | after
  | freed
deriving DecidableEq

/-- The results of the steps of the patch command.  `prep`: the steps before the search for patches, in their order
(`kpatch_process_init` is first and leaves nothing to free when it fails), each a number that is negative when the step
fails; `lookup`: the number of objects that have a patch; `apply`: `kpatch_apply_patches`.
`src/kpatch_patch.c:511-574` (process_patch). -/
structure PatchSteps (σ : Type) where
  init : Int
  prep : List Int
  lookup : Int
  attach : Int
  coro : Int
  dir : Bool
  before : Script
  after : Script
  apply : σ → σ × Int

/-- The events of a script: it is started when the storage is a directory that has it.  `src/kpatch_storage.c:476-490`. -/
def scriptEv (dir : Bool) (s : Script) (e : PatchEv) : List PatchEv := if dir && s.access == .ok then [e] else []

/-- The command on one process: the target afterwards, the result, and what was done.  `src/kpatch_patch.c:498-605`
(process_patch).  The messages and the measured time are left out. -/
def processPatch {σ : Type} (p : PatchSteps σ) (t : σ) : σ × Int × List PatchEv :=
  if p.init < 0 then (t, p.init, [])
  else
    match p.prep.find? (· < 0) with
    | some r => (t, r, [.freed])
    | none =>
      if p.lookup ≤ 0 then (t, p.lookup, [.freed])
      else if p.attach < 0 then (t, p.attach, [.freed])
      else if p.coro < 0 then (t, p.coro, [.attached, .freed])
      else
        let b := executeScript p.dir p.before
        if b < 0 then (t, b, .attached :: scriptEv p.dir p.before .before ++ [.freed])
        else
          let r := p.apply t
          (r.1, if r.2 < 0 then r.2 else 0,
            .attached :: scriptEv p.dir p.before .before ++ [.applied] ++ scriptEv p.dir p.after .after ++ [.freed])

/-! ## The server -/

/-- `sscanf(s, "%d", &pid)`; `none`: no number.  A number outside of int, which C leaves open, is cut as by `atoi`.
`src/libcare-server.c:24`, `src/libcare-server.c:77`. -/
def scanPid (s : List Byte) : Option Int :=
  let body := s.dropWhile isSpace
  let digits := if body.head? = some 45#8 ∨ body.head? = some 43#8 then body.drop 1 else body
  if digits.takeWhile isDigit = [] then none else some (toInt32 (strtoul10 s).1)

/-- What a command of a client asks for.  `src/libcare-server.c:106-146` (server_execute_cmd). -/
inductive SrvCall where
  | started (pid : Option Int) (justStarted : Bool)
  | update
  | storage (dir : List Byte)
  | stop
  | run
  | kill (pid : Option Int)
  | command (argv : List (List Byte))

/-- A missing argument is the empty string, the end of the message.  `src/libcare-server.c:106-146`
(server_execute_cmd), `src/libcare-server.c:181-183`. -/
def srvDispatch (argv : List (List Byte)) : SrvCall :=
  let cmd := argv.headD []
  let arg := argv.getD 1 []
  if cmd = lit "execve" then .started (scanPid arg) true
  else if cmd = lit "startup" then .started (scanPid arg) false
  else if cmd = lit "update" then .update
  else if cmd = lit "storage" then .storage arg
  else if cmd = lit "stop" then .stop
  else if cmd = lit "run" then .run
  else if cmd = lit "kill" then .kill (scanPid arg)
  else .command argv

/-- `strncpy(buf, s, n)`: fills up with NULs. C library; used at `src/libcare-server.c:92`. -/
def strncpy (buf s : List Byte) (n : Nat) : List Byte :=
  let c := (cstr s).take n
  c ++ List.replicate (n - c.length) 0#8 ++ buf.drop n

/-- Size of `storage_dir`. `src/libcare-server.c:17` (PATH_MAX). -/
def pathMax : Nat := 4096

/-- What the server does that others can see. -/
inductive SrvAct where
  /-- SIGTERM to a process; `asked`: because a client named it; `mine`: it was then a child not yet waited for.
  `src/libcare-server.c:40-47` (kill_and_wait) -/
  | signal (pid : Int) (asked mine : Bool)
  /-- `patch_user` with the storage, the process (`none`: all) and whether it was just started.
  `src/libcare-server.c:31`, `src/libcare-server.c:101` -/
  | patch (dir : List Byte) (pid : Option Int) (justStarted : Bool)
  /-- `execute_cmd`, `src/libcare-server.c:136` -/
  | command (argv : List (List Byte))
deriving DecidableEq

/-- The server and the processes of the system: `dir` is the buffer `storage_dir`, `child` the variable `childpid`, `used`
the process numbers in use, `mine` the children of the server that have not been waited for, `clones` those of them that
serve the socket too.  `src/libcare-server.c:17`, `src/libcare-server.c:49`, `src/libcare-server.c:264-304` (cmd_server). -/
structure Srv where
  dir : List Byte
  child : Int
  ended : Bool
  used : Int → Bool
  mine : Int → Bool
  clones : List Int
  log : List SrvAct

/-- What fork gives: nothing, or a child with its number, in which `execl` works or not. `src/libcare-server.c:60-68`. -/
inductive ForkRes where
  | failed
  | child (pid : Int) (execOk : Bool)
deriving DecidableEq

/-- `kill_and_wait`, `src/libcare-server.c` 40-47: waitpid returns when the child has ended, and at once when the process is
not a child.  Numbers that are not positive name groups of processes, for which no child is waited here. -/
def Srv.killWait (s : Srv) (pid : Int) (asked : Bool) : Srv :=
  let log := s.log ++ [.signal pid asked (s.mine pid)]
  if s.mine pid then
    { s with used := fun p => if p = pid then false else s.used p, mine := fun p => if p = pid then false else s.mine p,
             clones := s.clones.filter (· ≠ pid), log := log }
  else { s with log := log }

/-- `cmd_run`, `src/libcare-server.c` 51-73.  When `execl` fails the child returns from `cmd_run` and goes on as a server. -/
def Srv.run (s : Srv) (f : ForkRes) : Srv :=
  let s := if s.child ≠ 0 then { s.killWait s.child false with child := 0 } else s
  match f with
  | .failed => s
  | .child p ok =>
    { s with child := p, used := fun q => if q = p then true else s.used q, mine := fun q => if q = p then true else s.mine q,
             clones := if ok then s.clones else p :: s.clones }

/-- The end of the server: `src/libcare-server.c` 250-257 (kill_child) and 299-303 (cmd_server). -/
def Srv.finish (s : Srv) : Srv :=
  let s := if s.child ≠ 0 then s.killWait s.child false else s
  { s with ended := true }

/-- `server_execute_cmd`, `src/libcare-server.c` 106-146, with `cmd_execve_startup`, `cmd_kill`, `cmd_storage` and `cmd_update`
(19-104). -/
def Srv.client (s : Srv) (argv : List (List Byte)) (f : ForkRes) : Srv :=
  match srvDispatch argv with
  | .started none _ => s
  | .started (some pid) js => { s with log := s.log ++ [.patch (cstr s.dir) (some pid) js] }
  | .update => { s with log := s.log ++ [.patch (cstr s.dir) none false] }
  | .storage d => { s with dir := strncpy s.dir d (pathMax - 1) }
  | .stop => s.finish
  | .run => s.run f
  | .kill none => s
  | .kill (some pid) => s.killWait pid true
  | .command argv => { s with log := s.log ++ [.command argv] }

/-- What happens to the server and around it, one thing after the other: another process starts or ends, a client sends a
command (and fork gives this, if it is called), the signal SIGTERM comes between two commands. -/
inductive SrvIn where
  | appear (p : Int)
  | vanish (p : Int)
  | client (argv : List (List Byte)) (f : ForkRes)
  | term
deriving DecidableEq

/-- The loop of the server.  `src/libcare-server.c:287-297` (cmd_server). -/
def Srv.step (s : Srv) : SrvIn → Srv
  | .appear p => { s with used := fun q => if q = p then true else s.used q }
  | .vanish p => { s with used := fun q => if q = p then false else s.used q }
  | .client argv f => if s.ended then s else s.client argv f
  | .term => if s.ended then s else s.finish

/-- A history. `src/libcare-server.c:287-297`. -/
def Srv.steps (s : Srv) (h : List SrvIn) : Srv := h.foldl Srv.step s

/-- The server when it starts with the storage `d`, which fits the buffer (`strcpy`). `src/libcare-server.c:17`,
`src/libcare-server.c:283-284`. -/
def Srv.start (d : List Byte) (used : Int → Bool) : Srv :=
  ⟨d ++ List.replicate (pathMax - d.length) 0#8, 0, false, used, fun _ => false, [], []⟩

end Verif
