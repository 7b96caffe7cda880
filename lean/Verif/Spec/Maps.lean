import Verif.Model.Maps
/-
The memory map of a process as the kernel prints it (`fs/proc/task_mmu.c`, proc(5)), independent of the code.
-/
namespace Verif

/-- A mapping of a process. -/
structure KVma where
  start : Nat
  stop : Nat
  readable : Bool
  writable : Bool
  executable : Bool
  shared : Bool
  offset : Nat
  maj : Nat
  min : Nat
  inode : Nat
  /-- path or name in brackets; empty when there is none -/
  name : List Byte
  deriving DecidableEq

/-- The digits `0`-`9`, `a`-`f` in order. -/
def lowerDigits : List Byte := lit "0123456789abcdef"

/-- `s` is a number in the given base, of at least one digit, with any number of leading zeros. -/
inductive Numeral (base : Nat) : List Byte → Nat → Prop
  | digit {d : Nat} {c : Byte} : d < base → lowerDigits[d]? = some c → Numeral base [c] d
  | snoc {s : List Byte} {v d : Nat} {c : Byte} :
      Numeral base s v → d < base → lowerDigits[d]? = some c → Numeral base (s ++ [c]) (base * v + d)

/-- The four permission characters. -/
def KVma.perms (v : KVma) : List Byte :=
  [if v.readable then 114#8 else 45#8, if v.writable then 119#8 else 45#8, if v.executable then 120#8 else 45#8,
    if v.shared then 115#8 else 112#8]

/-- The line of a mapping: `start-end perms offset major:minor inode name`, without the end of the line. -/
def KVma.Line (v : KVma) (line : List Byte) : Prop :=
  ∃ a b o mj mn ino : List Byte, ∃ blanks : Nat,
    Numeral 16 a v.start ∧ Numeral 16 b v.stop ∧ Numeral 16 o v.offset ∧ Numeral 16 mj v.maj ∧ Numeral 16 mn v.min ∧
    Numeral 10 ino v.inode ∧
    line = a ++ 45#8 :: b ++ 32#8 :: v.perms ++ 32#8 :: o ++ 32#8 :: mj ++ 58#8 :: mn ++ 32#8 :: ino ++ 32#8 ::
      List.replicate blanks 32#8 ++ v.name

/-- The text of the map: one line for each mapping, in order. -/
inductive MapsText : List KVma → List (List Byte) → List Byte → Prop
  | nil : MapsText [] [] []
  | cons {v : KVma} {vs : List KVma} {line : List Byte} {lines : List (List Byte)} {text : List Byte} :
      v.Line line → MapsText vs lines text → MapsText (v :: vs) (line :: lines) (line ++ 10#8 :: text)

/-- The last component of a path. -/
def LastComponent (path last : List Byte) : Prop :=
  47#8 ∉ last ∧ ∃ dir, path = dir ++ 47#8 :: last

/-- The name a mapping is known by: the file name without directories, the name in brackets, or
`[anonymous]`. -/
def KVma.Called (v : KVma) (name : String) : Prop :=
  (v.name = [] ∧ name = "[anonymous]") ∨
  (v.name ≠ [] ∧ v.name.head? ≠ some 47#8 ∧ name = nameString v.name) ∨
  (v.name.head? = some 47#8 ∧ ∃ last, LastComponent v.name last ∧ name = nameString last)

/-- What is to be recorded of a mapping. -/
structure KVma.Recorded (v : KVma) (w : Mapping) : Prop where
  start : w.start = v.start
  stop : w.stop = v.stop
  prot : w.prot = (if v.readable then 1 else 0) + (if v.writable then 2 else 0) + (if v.executable then 4 else 0)
  name : v.Called w.name
  inode : w.inode = v.inode
  dev : w.dev = makedev v.maj v.min

/-- The numbers are in the ranges of the fields they are kept in. -/
structure KVma.InRange (v : KVma) : Prop where
  start : v.start < 2 ^ 64
  stop : v.stop < 2 ^ 64
  maj : v.maj < 2 ^ 32
  min : v.min < 2 ^ 32
  inode : v.inode < 2 ^ 32

/-- The name has no white space and no 0 byte, and at most 255 characters. -/
def KVma.PlainName (v : KVma) : Prop :=
  (∀ c ∈ v.name, isSpace c = false ∧ c ≠ 0#8) ∧ v.name.length ≤ 255

end Verif
