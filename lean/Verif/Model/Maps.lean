import Verif.Model.Cc
import Verif.Model.Commands
import Verif.Model.Holes
import Verif.Model.Process
/-
Reading the memory map of the target as text: `kpatch_process_parse_proc_maps`, `src/kpatch_process.c` 480-578.

The file is a byte string that does not change while it is read.  Reading a variable that `sscanf` has not set,
and more than four permission characters (the array has five elements), are undefined behaviour in C; the model
says `undefined` for them.  Failures of `dup`, `fdopen` and `malloc` are not modelled.
-/
namespace Verif

/-- `fgets(line, 1024, f)`: at most 1023 bytes, up to the end of the line; the rest of the file.
`src/kpatch_process.c:517-518`. -/
def mapsFgets (s : List Byte) : List Byte × List Byte :=
  let chunk := s.take 1023
  let line := if chunk.contains 10#8 then chunk.takeWhile (· ≠ 10#8) ++ [10#8] else chunk
  (line, s.drop line.length)

/-- A hexadecimal digit. C library; used by sscanf at `src/kpatch_process.c:519`. -/
def isHexDigit (c : Byte) : Bool :=
  isDigit c || (97#8 ≤ c && c ≤ 102#8) || (65#8 ≤ c && c ≤ 70#8)
/-- Its value. C library; used by sscanf at `src/kpatch_process.c:519`. -/
def hexDigitVal (c : Byte) : Nat :=
  if isDigit c then c.toNat - 48 else if 97#8 ≤ c then c.toNat - 87 else c.toNat - 55
/-- The number of a list of hexadecimal digits. C library; used by sscanf at `src/kpatch_process.c:519`. -/
def hexVal (ds : List Byte) : Nat := ds.foldl (fun n d => n * 16 + hexDigitVal d) 0

/-- A sign: whether it is a minus, and the rest. C library; used by sscanf at `src/kpatch_process.c:519`. -/
def scanSign (s : List Byte) : Bool × List Byte :=
  match s with
  | c :: r => if c = 45#8 then (true, r) else if c = 43#8 then (false, r) else (false, s)
  | [] => (false, s)

/-- The value of a conversion to `unsigned long`: too big values give `ULONG_MAX`, a minus negates.
C library; used by sscanf at `src/kpatch_process.c:519`. -/
def clampULong (neg : Bool) (v : Nat) : Nat :=
  if 2 ^ 64 ≤ v then 2 ^ 64 - 1 else if neg then (2 ^ 64 - v) % 2 ^ 64 else v

/-- `%lx` of scanf: white space, a sign, `0x`, digits. C library; used by sscanf at `src/kpatch_process.c:519`. -/
def scanHex (s : List Byte) : Option (Nat × List Byte) :=
  let (neg, s) := scanSign (s.dropWhile isSpace)
  let s := if (s.take 2 = [48#8, 120#8] ∨ s.take 2 = [48#8, 88#8]) ∧ ((s.drop 2).head?.map isHexDigit).getD false
    then s.drop 2 else s
  let ds := s.takeWhile isHexDigit
  if ds = [] then none else some (clampULong neg (hexVal ds), s.dropWhile isHexDigit)

/-- `%d` of scanf, stored in an `unsigned int`: the low 32 bits of the `long`, to which bigger values are
clamped. C library; used by sscanf at `src/kpatch_process.c:519`. -/
def scanDec (s : List Byte) : Option (Nat × List Byte) :=
  let (neg, s) := scanSign (s.dropWhile isSpace)
  let ds := s.takeWhile isDigit
  if ds = [] then none
  else
    let v := digitsVal ds
    let l : Nat := if neg then 2 ^ 64 - min v (2 ^ 63) else min v (2 ^ 63 - 1)
    some (l % 2 ^ 32, s.dropWhile isDigit)

/-- `%s` with at most `n` characters. C library; used by sscanf at `src/kpatch_process.c:519`. -/
def scanWord (n : Nat) (s : List Byte) : Option (List Byte × List Byte) :=
  let s := s.dropWhile isSpace
  let w := (s.takeWhile fun c => !isSpace c).take n
  if w = [] then none else some (w, s.drop w.length)

/-- A literal character of the format. C library; used by sscanf at `src/kpatch_process.c:519`. -/
def scanChar (c : Byte) (s : List Byte) : Option (List Byte) := if s.head? = some c then some (s.drop 1) else none

/-- `perms2prot`, `src/kpatch_process.c` 389-401. -/
def perms2prot (perms : List Byte) : Nat :=
  (if perms[0]? = some 114#8 then 1 else 0) + (if perms[1]? = some 119#8 then 2 else 0) +
    (if perms[2]? = some 120#8 then 4 else 0)

/-- glibc's `makedev` for `unsigned int` numbers. C library; used at `src/kpatch_process.c:549`. -/
def makedev (maj min : Nat) : Nat :=
  min % 2 ^ 8 + (maj % 2 ^ 12) * 2 ^ 8 + (min / 2 ^ 8) * 2 ^ 20 + (maj / 2 ^ 12) * 2 ^ 44

/-- What a line gives. -/
inductive MapsOut (α : Type) where
  /-- a result -/
  | ok (x : α)
  /-- -1, the command ends -/
  | error
  /-- undefined behaviour -/
  | undefined
  deriving DecidableEq

/-- The bytes of a name as the strings of `Mapping`. -/
def nameString (s : List Byte) : String := String.ofList (s.map fun b => Char.ofNat b.toNat)

/-- One line: `sscanf(line, "%lx-%lx %s %lx %x:%x %d %255s", ...)` and the name,
`src/kpatch_process.c` 519-530 and 547. -/
def mapsLine (line : List Byte) : MapsOut Mapping :=
  let line := cstr line
  if line.dropWhile isSpace = [] then .error
  else
    match (do
      let (start, s) ← scanHex line
      let s ← scanChar 45#8 s
      let (stop, s) ← scanHex s
      let (perms, s) ← scanWord s.length s
      let (_, s) ← scanHex s
      let (maj, s) ← scanHex s
      let s ← scanChar 58#8 s
      let (min, s) ← scanHex s
      let (inode, s) ← scanDec s
      pure (start, stop, perms, maj % 2 ^ 32, min % 2 ^ 32, inode, s) : Option (Nat × Nat × List Byte × Nat × Nat × Nat × List Byte)) with
    | none => .undefined
    | some (start, stop, perms, maj, min, inode, s) =>
      if 4 < perms.length then .undefined
      else
        let name := ((scanWord 255 s).map Prod.fst).getD (lit "[anonymous]")
        let name := if name.head? = some 47#8 then baseName name else name
        .ok ⟨start, stop, perms2prot perms, makedev maj min, inode, nameString name⟩

/-- The lines of the map, `src/kpatch_process.c` 509-564 (at most `n` of them). -/
def mapsLines : Nat → List Byte → MapsOut (List Mapping)
  | 0, _ => .ok []
  | n + 1, s =>
    if s = [] then .ok []
    else
      let r := mapsFgets s
      match mapsLine r.1 with
      | .ok v =>
        match mapsLines n r.2 with
        | .ok vs => .ok (v :: vs)
        | .error => .error
        | .undefined => .undefined
      | .error => .error
      | .undefined => .undefined

/-- What is known of the process after the map has been read. `src/include/kpatch_process.h:149-200`. -/
structure ProcMaps where
  objs : List Obj
  holes : List Hole
  /-- `proc->libc_base` -/
  libcBase : Nat
  deriving DecidableEq

/-- The test for the mapping whose start becomes `libc_base`, `src/kpatch_process.c` 556-558. -/
def isLibcText (v : Mapping) : Bool := "libc".toList.isPrefixOf v.name.toList && v.prot / 4 % 2 == 1

/-- `kpatch_process_parse_proc_maps`, `src/kpatch_process.c` 480-578.  Each line takes at least one byte, so the
length of the text bounds the number of lines. -/
def parseProcMaps (page : Nat) (type : Mapping → ObjType) (text : List Byte) : MapsOut ProcMaps :=
  match mapsLines text.length text with
  | .ok maps =>
    match maps.find? isLibcText with
    | none => .error
    | some v => .ok ⟨parseMaps type maps, parseHoles page 0 0 (maps.map fun w => (w.start, w.stop)), v.start⟩
  | .error => .error
  | .undefined => .undefined

end Verif
