import Verif.Model.Cblock
import Verif.Model.Cc
import Verif.Model.RemoteCall
/-
A process that was just started: its name (`src/kpatch_process.c` 863-945) and the address until which it is run
before it is patched (`src/kpatch_ptrace.c` 171-208, 636-667, `wait_for_mmap` of `src/arch/*/arch_ptrace.c`,
`src/kpatch_process.c` 986-1027).
-/
namespace Verif

/-! ### The name -/

/-- `sizeof(proc->comm) - 1`, `src/include/kpatch_process.h` 160. -/
def commLen : Nat := 15

/-- The part of `process_get_comm` before the test for `ld`, `src/kpatch_process.c` 931-937, on the target of the
link `/proc/<pid>/exe`: the last byte of it is overwritten by the terminator, the base name is cut to the buffer
(127 bytes), cut before ` (deleted)` and cut to 15 bytes.  A base name that fills the buffer is taken to be terminated
there. -/
def commOfLink (link : List Byte) : List Byte :=
  let bn := (baseName link.dropLast).take 127
  let nm := match subIndex bn (lit " (deleted)") with
    | some k => bn.take k
    | none => bn
  nm.take commLen

/-- `process_get_comm_ld_linux`, `src/kpatch_process.c` 862-913: `data` is what one `read` of the command line
delivered (at most 1024 bytes), `junk` what the buffer holds behind it.  `none`: failed.  The second loop (896-898) and
the test behind it (900-903) never do anything, as `p` is never below `buf`. -/
def commLd (data junk : List Byte) : Option (List Byte) :=
  let p := (data.takeWhile (· != 0)).length
  if p = 0 then none
  else some ((baseName (cstr ((data ++ junk).drop (p + 1)))).take commLen)

/-- `process_get_comm`, `src/kpatch_process.c` 915-945: `proc->comm` and `proc->is_ld_linux`; `link = none`: reading
the link failed. -/
def getComm (link : Option (List Byte)) (data junk : List Byte) : Option (List Byte × Bool) :=
  match link with
  | none => none
  | some l =>
    let c := commOfLink l
    if (lit "ld").isPrefixOf c then (commLd data junk).map (·, true)
    else some (c, false)

/-! ### The entry point -/

/-- One result of `read(fd, entry, 16)` on `/proc/<pid>/auxv`: a whole pair of words, an interruption, another error,
or another number of bytes after which `entry` has the given contents. `src/kpatch_ptrace.c:187-192`. -/
inductive AuxRead where
  | pair (k v : BitVec 64)
  | eintr
  | error
  | short (k v : BitVec 64)
  deriving DecidableEq, Repr

/-- `kpatch_ptrace_get_entry_point`, `src/kpatch_ptrace.c` 171-208: `cur` is the first word of `entry`, `val` what
`*pentry_point` holds (not initialised by the caller).  `AT_ENTRY` is 9.  No more results: the kernel goes on
returning 0 at the end of the file, which leaves `entry` alone. -/
def entryGo (val : BitVec 64) : BitVec 64 → List AuxRead → Option (BitVec 64)
  | cur, [] => if cur = 9 then some val else none
  | cur, .eintr :: rs => entryGo val cur rs
  | cur, .error :: _ => if cur = 9 then some val else none
  | _, .short k _ :: _ => if k = 9 then some val else none
  | _, .pair k v :: rs => if k = 9 then some v else entryGo val k rs

/-- `kpatch_ptrace_get_entry_point`, `src/kpatch_ptrace.c` 171-208, from `entry = { AT_NULL, 0 }` (175). -/
def getEntryPoint (val : BitVec 64) (rs : List AuxRead) : Option (BitVec 64) := entryGo val 0 rs

/-- What one `waitpid` in `wait_for_mmap` reports: the process exited, it did something else that is not a stop, or it
stopped with a signal; then its registers, and on x86 `orig_rax`. `src/arch/x86/arch_ptrace.c:156-168`. -/
inductive TEvent where
  | exited
  | other
  | stopped (sig : Nat) (c : Cpu) (orig : BitVec 64)

/-- How `wait_for_mmap` ends: not at all while the events last, with -1, or with 0 and `*pbase`. `src/arch/x86/arch_ptrace.c:141-196`. -/
inductive WaitRes where
  | waiting
  | failed
  | base (a : BitVec 64)
  deriving DecidableEq, Repr

/-- The register taken for the number of the system call: `src/arch/x86/arch_ptrace.c` 172-181,
`src/arch/aarch64/arch_ptrace.c` 175-184, `src/arch/loongarch64/arch_ptrace.c` 193-197, `src/arch/riscv64/arch_ptrace.c`
192-196. -/
def peekNr : Isa → Cpu → BitVec 64 → BitVec 64
  | .x86, _, orig => orig
  | .aarch64, c, _ => c.g 29
  | .loongarch, c, _ => c.g 11
  | .riscv, c, _ => c.g 17

/-- The register taken for the result: `src/arch/x86/arch_ptrace.c` 184-188, `src/arch/aarch64/arch_ptrace.c` 187-191,
`src/arch/loongarch64/arch_ptrace.c` 199-203 (the program counter), `src/arch/riscv64/arch_ptrace.c` 198-202. -/
def peekRes : Isa → Cpu → BitVec 64
  | .x86, c => c.g 0
  | .aarch64, c => c.g 8
  | .loongarch, c => BitVec.ofNat 64 c.pc
  | .riscv, c => c.g 10

/-- `PTRACE_PEEKUSER` returns -1 also as the value of the register, and the code takes that for an error; with
`read_gregs` it cannot happen. `src/arch/x86/arch_ptrace.c:177-180`, `src/arch/aarch64/arch_ptrace.c:180-183`. -/
def peekFails : Isa → BitVec 64 → Bool
  | .x86, v => v == -1
  | .aarch64, v => v == -1
  | _, _ => false

/-- A stop that is passed over: on riscv64 and loongarch64 those with another signal than `SIGTRAP` (5).
`src/arch/riscv64/arch_ptrace.c:185-188`, `src/arch/loongarch64/arch_ptrace.c:186-189`. -/
def skipsStop : Isa → Nat → Bool
  | .x86, _ => false
  | .aarch64, _ => false
  | _, sig => sig != 5

/-- `wait_for_mmap`: `src/arch/x86/arch_ptrace.c` 140-196, `src/arch/aarch64/arch_ptrace.c` 143-199,
`src/arch/loongarch64/arch_ptrace.c` 160-211, `src/arch/riscv64/arch_ptrace.c` 159-210, on the events that `waitpid`
reports; `ins` is `insyscall`, an `int`.  `ptrace` and `waitpid` are taken not to fail before the process exits; after
that `ptrace` fails. -/
def waitMmap (isa : Isa) : BitVec 32 → List TEvent → WaitRes
  | _, [] => .waiting
  | _, .exited :: _ => .failed
  | ins, .other :: es => waitMmap isa ins es
  | ins, .stopped sig c orig :: es =>
    if skipsStop isa sig then waitMmap isa ins es
    else if ins = 0 then
      if peekFails isa (peekNr isa c orig) then .failed
      else waitMmap isa ((peekNr isa c orig).setWidth 32) es
    else if ins = (nrMmap isa).setWidth 32 then .base (peekRes isa c)
    else waitMmap isa 0 es

/-- `kpatch_ptrace_handle_ld_linux`, `src/kpatch_ptrace.c` 635-667: the header is 64 bytes, `e_type` is at 16,
`e_entry` at 24, `ET_DYN` is 3. -/
def handleLdLinux (isa : Isa) (lim : Nat) (m : Mem) (es : List TEvent) : Option (BitVec 64) :=
  match waitMmap isa 0 es with
  | .base orig =>
    match memRead lim m orig.toNat 64 with
    | none => none
    | some h =>
      let entry := BitVec.ofNat 64 (leVal ((h.drop 24).take 8))
      if leVal ((h.drop 16).take 2) = 3 then some (entry + orig) else some entry
  | _ => none

end Verif
