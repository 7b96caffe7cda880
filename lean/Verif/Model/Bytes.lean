import Verif.Model.Mem
/-
Raw byte buffers and the little-endian fields that the C code reads and writes in them through
struct pointers.
-/
namespace Verif

/-- Value of a little-endian byte string (all targets of libcareplus are little-endian). Memory layout of C integers; used for the fields of `src/include/kpatch_file.h:128-185`. -/
def leVal : List Byte → Nat
  | [] => 0
  | b :: bs => b.toNat + 256 * leVal bs

/-- The `n` low bytes of `v`, little-endian. Memory layout of C integers; used for the fields of `src/include/kpatch_file.h:128-185`. -/
def leBytes : Nat → Nat → List Byte
  | 0, _ => []
  | n + 1, v => BitVec.ofNat 8 v :: leBytes n (v / 256)

/-- Read an `n`-byte unsigned field at `off` of a buffer (`p->field` through a struct pointer).
Reading past the end of the buffer is undefined behaviour in C: `none`. Used for the fields of `src/include/kpatch_file.h:128-185`. -/
def getField (bs : List Byte) (off n : Nat) : Option Nat :=
  if off + n ≤ bs.length then some (leVal ((bs.drop off).take n)) else none

/-- Store an `n`-byte unsigned field at `off` (`p->field = v`, truncating `v` to the field). Only used
on buffers large enough for the field. Used for the fields of `src/include/kpatch_file.h:128-185`. -/
def setField (bs : List Byte) (off n v : Nat) : List Byte :=
  bs.take off ++ leBytes n v ++ bs.drop (off + n)

/-- `ROUND_UP(x, m)`, `src/include/kpatch_common.h` 20, for `m` a power of two and no overflow. -/
def roundUp (x m : Nat) : Nat := (x + m - 1) / m * m

/-- `ROUND_DOWN(x, m)`, `src/include/kpatch_common.h` 19, for `m` a power of two. -/
def roundDown (x m : Nat) : Nat := x / m * m

end Verif
