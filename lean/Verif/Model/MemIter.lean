import Verif.Model.Mem
/-
The buffered remote memory reader.  Models `src/kpatch_ptrace.c` 113-162
(`kpatch_process_mem_iter_init`, `kpatch_process_mem_iter_peek`).
-/
namespace Verif

/-- What the kernel does with one `pread` of `/proc/pid/mem`. `src/kpatch_ptrace.c:137-162` (kpatch_process_mem_iter_peek). -/
inductive ReadOutcome where
  /-- `pread` returns -1 and stores nothing -/
  | err
  /-- `pread` returns the longest mapped prefix, but at most this many bytes; when the very first
  byte is not mapped it returns -1 (`EIO`) -/
  | upTo (lim : Nat)
  deriving DecidableEq, Repr

/-- `struct process_mem_iter`, `src/include/kpatch_ptrace.h` 26-32.  `buf` has `buffer_size` bytes
(zero-filled by `kpatch_process_mem_iter_init`), `buflen` is a `size_t`. -/
structure MemIter where
  base : Nat
  buf : List Byte
  buflen : Nat

/-- `kpatch_process_mem_iter_init`, `src/kpatch_ptrace.c` 113-130; the failing `malloc` is not
modelled (the callers give up). -/
def MemIter.init (page : Nat) : MemIter := { base := 0, buf := List.replicate page 0, buflen := 0 }

/-- The `pread` of `src/kpatch_ptrace.c` 150-153: returns the value stored in the `size_t ret` (so -1
becomes `2^64 - 1`) and the new buffer contents. -/
def iterPread (o : ReadOutcome) (m : Mem) (buf : List Byte) (addr : Nat) : Nat × List Byte :=
  match o with
  | .err => (2 ^ 64 - 1, buf)
  | .upTo lim =>
    if lim = 0 then (0, buf)
    else
      let bs := pread lim m addr buf.length
      if bs.length = 0 then (2 ^ 64 - 1, buf)
      else (bs.length, bs ++ buf.drop bs.length)

/-- `kpatch_process_mem_iter_peek`, `src/kpatch_ptrace.c` 137-162, for `size ≤ buffer_size` (larger
requests go to `kpatch_process_mem_read`).  `o` is what the kernel does if a `pread` is needed.  The
addition `base + buflen` wraps at 64 bits.  Returns the iterator and `some bytes` for return value 0,
`none` for -1. -/
def MemIter.peek (it : MemIter) (o : ReadOutcome) (m : Mem) (size addr : Nat) :
    MemIter × Option (List Byte) :=
  if it.buflen = 0 ∨ addr < it.base ∨ (addr + size) % 2 ^ 64 > (it.base + it.buflen) % 2 ^ 64 then
    let r := iterPread o m it.buf addr
    if r.1 < size then ({ it with base := addr, buf := r.2 }, none)
    else ({ base := addr, buf := r.2, buflen := r.1 }, some (r.2.take size))
  else (it, some ((it.buf.drop (addr - it.base)).take size))

/-- One request to the buffered reader. `src/kpatch_ptrace.c:137-162` (kpatch_process_mem_iter_peek). -/
structure ReadReq where
  outcome : ReadOutcome
  /-- how far the kernel goes when the request bypasses the buffer -/
  direct : Nat
  size : Nat
  addr : Nat

/-- `kpatch_process_mem_iter_peek`, `src/kpatch_ptrace.c` 137-162, including the bypass for large
requests. -/
def MemIter.peekAny (it : MemIter) (m : Mem) (r : ReadReq) : MemIter × Option (List Byte) :=
  if r.size > it.buf.length then (it, memRead r.direct m r.addr r.size)
  else it.peek r.outcome m r.size r.addr

/-- The results of a sequence of requests. Successive calls of `src/kpatch_ptrace.c:137-162` (kpatch_process_mem_iter_peek). -/
def MemIter.peekAll (it : MemIter) (m : Mem) : List ReadReq → List (Option (List Byte))
  | [] => []
  | r :: rs => (it.peekAny m r).2 :: MemIter.peekAll (it.peekAny m r).1 m rs

end Verif
