import Verif.Model.Startup
import Verif.Spec.RemoteCpu
/-
Specification vocabulary for processes that were just started.
-/
namespace Verif

/-! ### System calls as the kernel reports them to a tracer -/

/-- The number of the system call, by the calling conventions of the kernel. -/
def kernelNr : Isa → Cpu → BitVec 64 → BitVec 64
  | .x86, _, orig => orig
  | .aarch64, c, _ => c.g 8
  | .loongarch, c, _ => c.g 11
  | .riscv, c, _ => c.g 17

/-- The result of the system call, by the calling conventions of the kernel. -/
def kernelRes : Isa → Cpu → BitVec 64
  | .x86, c => c.g 0
  | .aarch64, c => c.g 0
  | .loongarch, c => c.g 4
  | .riscv, c => c.g 10

/-- One system call: its number and its result. -/
structure SysCall where
  nr : BitVec 64
  ret : BitVec 64
  deriving DecidableEq, Repr

/-- The events begin with the stops at the entries to and the exits from the given system calls, in this order (first
the exit from `pending`, if there is one); events with the property `N` can stand anywhere between them, and anything
can follow.  Both stops are by `SIGTRAP` (5), and the number of the system call is still there at its exit. -/
inductive CallHistory (isa : Isa) (N : TEvent → Prop) : Option SysCall → List SysCall → List TEvent → Prop
  | rest (es) : CallHistory isa N none [] es
  | noise {p cs e es} : N e → CallHistory isa N p cs es → CallHistory isa N p cs (e :: es)
  | enter {s cs c o es} : kernelNr isa c o = s.nr → CallHistory isa N (some s) cs es →
      CallHistory isa N none (s :: cs) (.stopped 5 c o :: es)
  | leave {s cs c o es} : kernelNr isa c o = s.nr → kernelRes isa c = s.ret → CallHistory isa N none cs es →
      CallHistory isa N (some s) cs (.stopped 5 c o :: es)

/-- Nothing but reports that are not stops. -/
def noSignals : TEvent → Prop
  | .other => True
  | _ => False

/-- Reports that are not stops, and stops by other signals than `SIGTRAP`. -/
def anySignals : TEvent → Prop
  | .other => True
  | .stopped sig _ _ => sig ≠ 5
  | .exited => False

/-- The result of the first `mmap`. -/
def firstMmap (isa : Isa) (cs : List SysCall) : Option (BitVec 64) :=
  (cs.find? fun s => s.nr == mmapNr isa).map SysCall.ret

/-- The 64 bytes are an ELF header with this type and this entry. -/
def IsEhdr (h : List Byte) (typ : Nat) (entry : BitVec 64) : Prop :=
  h.length = 64 ∧ typ < 2 ^ 16 ∧ (h.drop 16).take 2 = leBytes 2 typ ∧ (h.drop 24).take 8 = leBytes 8 entry.toNat

/-- Where the entry of a program is when the program is mapped from `base` on: programs of type `ET_DYN` (3) are
position independent. -/
def runEntry (typ : Nat) (entry base : BitVec 64) : BitVec 64 := if typ = 3 then base + entry else entry

/-! ### Names -/

/-- The path of a file `name` in `dir`. -/
def inDir (dir name : List Byte) : List Byte := dir ++ lit "/" ++ name

/-- The name of a file: not empty, without `/` and without zero. -/
def FileName (name : List Byte) : Prop := name ≠ [] ∧ 47#8 ∉ name ∧ 0#8 ∉ name

/-- What the kernel keeps in `comm` for a program: the first fifteen bytes of its name. -/
def kernelComm (name : List Byte) : List Byte := name.take 15

/-- What `/proc/<pid>/cmdline` holds: every argument with a terminating zero. -/
def cmdline (args : List (List Byte)) : List Byte := args.flatMap (· ++ [0])

end Verif
