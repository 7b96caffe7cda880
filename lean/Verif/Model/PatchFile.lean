import Verif.Model.Process
import Verif.Model.Holes
/-
Patch files: how they are made, checked when loaded, and dumped.
Models `src/kpatch_make.c` 39-68, `src/kpatch_common.c` 40-64, `src/kpatch_storage.c` 36-75 and
`src/libcare-dump.c` 86-144.
-/
namespace Verif

/-- `strncpy(field, s, w - 1)` into a zeroed field of `w` bytes, as in `src/kpatch_make.c` 49-50.  `s` is a C
string: no NUL in it. -/
def strField (w : Nat) (s : List Byte) : List Byte :=
  s.take (w - 1) ++ List.replicate (w - (s.take (w - 1)).length) 0

/-- The header written by `make_file`, `src/kpatch_make.c` 46-59; field offsets of `struct kpatch_file`,
`src/include/kpatch_file.h` 126-182.  Nothing sets the module name.  `size` is the aligned payload size. -/
def makeHeader (buildid id : List Byte) (time size : Nat) : List Byte :=
  kpatchMagic ++ strField 8 id ++ List.replicate 8 0 ++ List.replicate 64 0 ++ strField 41 buildid ++
    List.replicate 7 0 ++ leBytes 8 time ++ leBytes 4 0 ++ leBytes 4 0 ++ leBytes 4 hdrSize ++ leBytes 4 hdrSize ++
    leBytes 4 (hdrSize + size) ++ List.replicate 340 0

/-- The two `write` calls: what the kernel writes of a buffer, -1 (`none`) on error. `src/kpatch_make.c:59-60` (make_file). -/
abbrev WriteOracle := List Byte → Option Nat

/-- the bytes that arrive in the file by `src/kpatch_make.c:59-60` (make_file) -/
def wrote (w : WriteOracle) (bs : List Byte) : List Byte := bs.take ((w bs).getD 0)
/-- the value `write` returns at `src/kpatch_make.c:59-60` (make_file) -/
def wroteRet (w : WriteOracle) (bs : List Byte) : Int :=
  match w bs with
  | none => -1
  | some n => (min n bs.length : Nat)

/-- `make_file`, `src/kpatch_make.c` 39-68: content of the output and whether it returns 0.  `payload` is the mapped
input file; the kernel fills the rest of its last page with zeros, which is where the padding to 16 bytes comes from.
The sum of the results is kept in an `int`; both writes are below 2 GiB. -/
def makeFile (w1 w2 : WriteOracle) (buildid id : List Byte) (time : Nat) (payload : List Byte) : List Byte × Bool :=
  let size := roundUp payload.length 16
  let hdr := makeHeader buildid id time size
  let body := payload ++ List.replicate (size - payload.length) 0
  (wrote w1 hdr ++ wrote w2 body, decide (wroteRet w1 hdr + wroteRet w2 body = ((hdrSize + size : Nat) : Int)))

/-- `kpatch_open_fd` (size check, `src/kpatch_common.c` 50-55) followed by `patch_file_verify`,
`src/kpatch_storage.c` 36-75. -/
def acceptFile (file : List Byte) : Bool :=
  if file.length < hdrSize then false
  else if file.take 8 ≠ kpatchMagic then false
  else if (getField file offTotalSize 4).getD 0 > file.length then false
  else
    let off := (getField file offKpatchOffset 4).getD 0
    if off + 64 > file.length then false
    else if (file.drop off).take 4 ≠ elfMagic then false
    else if getField file (off + 16) 2 ≠ some 1 then false
    else if getField file (off + 58) 2 ≠ some 64 then false
    else true

/-- `kpatch_convert_to_elf`, `src/libcare-dump.c` 86-144: the bytes written to the output, `none` when it
fails (opening and mapping succeed, the output is written completely).  Files are below 2 GiB. -/
def dumpElf (file : List Byte) : Option (List Byte) :=
  if file.length ≤ hdrSize then none
  else if (file.drop hdrSize).take 4 ≠ elfMagic then none
  else some (file.drop hdrSize)

/-- The length of the image part that `object_apply_patch` copies: `kp->total_size - sizeof(*kp)` as a `size_t`,
`src/kpatch_patch.c` 377 and 431-435. -/
def imageCopyLen (file : List Byte) : Nat := sub64 ((getField file offTotalSize 4).getD 0) hdrSize

end Verif
