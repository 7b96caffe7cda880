/-
Remote memory of the patched process and the primitive accesses to it.

Models `src/kpatch_ptrace.c` 45-111 (`kpatch_process_mem_read`, `kpatch_process_mem_write`),
517-581 (`kpatch_mmap_remote`, `kpatch_munmap_remote`) and 600-633 (`kpatch_process_memcpy`).
-/
namespace Verif

/-- An address of the target process (`unsigned long`).  Modelled as an unbounded natural number;
wrap-around of addresses is only modelled where a property is about it (jump encodings,
relocations), there `BitVec 64` is used. -/
macro "Addr" : term => `(Nat)

/-- One byte. `unsigned char`; for example `src/kpatch_ptrace.c:47-58`. -/
abbrev Byte := BitVec 8

/-- The address space of the target: `none` means that no mapping covers the address. The file `/proc/<pid>/mem` of `src/kpatch_process.c:724-740`. -/
abbrev Mem := Addr → Option Byte

/-- Pointwise update of one byte. Used for the writes of `src/kpatch_ptrace.c:95-110`. -/
def Mem.set (m : Mem) (a : Addr) (v : Option Byte) : Mem := fun x => if x = a then v else m x

/-- `pwrite(proc->memfd, src, size, dst)`, `src/kpatch_ptrace.c` 103-104.
The kernel writes a prefix of the data: it stops at the first unmapped byte and may stop anywhere
else for reasons outside the model, which is the parameter `lim` (the maximal number of bytes it
is willing to write).  Returns the new memory and the number of bytes written; `/proc/pid/mem`
ignores the protection of the page (`FOLL_FORCE`), so protections do not appear here. -/
def pwrite (lim : Nat) (m : Mem) (dst : Addr) : List Byte → Mem × Nat
  | [] => (m, 0)
  | b :: bs =>
    if lim = 0 ∨ m dst = none then (m, 0)
    else
      let r := pwrite (lim - 1) (m.set dst (some b)) (dst + 1) bs
      (r.1, r.2 + 1)

/-- `pread(proc->memfd, dst, size, src)`, `src/kpatch_ptrace.c` 54: the longest mapped prefix,
again cut at an arbitrary `lim`. -/
def pread (lim : Nat) (m : Mem) (src : Addr) : Nat → List Byte
  | 0 => []
  | n + 1 =>
    if lim = 0 then [] else
    match m src with
    | none => []
    | some b => b :: pread (lim - 1) m (src + 1) n

/-- `kpatch_process_mem_read`, `src/kpatch_ptrace.c` 46-57: fails unless all bytes were read. -/
def memRead (lim : Nat) (m : Mem) (src : Addr) (size : Nat) : Option (List Byte) :=
  let bs := pread lim m src size
  if bs.length = size then some bs else none

/-- `kpatch_process_mem_write`, `src/kpatch_ptrace.c` 94-111, the `pwrite` path (the word-wise
`ptrace` path is modelled in `Verif.Model.Ptrace`).  The Boolean is "returned 0". -/
def memWrite (lim : Nat) (m : Mem) (dst : Addr) (bs : List Byte) : Mem × Bool :=
  let r := pwrite lim m dst bs
  (r.1, r.2 == bs.length)

/-- `kpatch_process_memcpy`, `src/kpatch_ptrace.c` 600-633: read into a local buffer and write it
back elsewhere.  The failing `malloc` is the case `rlim = 0` (nothing is changed). -/
def memCpy (rlim wlim : Nat) (m : Mem) (dst src : Addr) (size : Nat) : Mem × Bool :=
  match memRead rlim m src size with
  | none => (m, false)
  | some bs => memWrite wlim m dst bs

/-- Successful `mmap(addr, len, .., MAP_FIXED | MAP_PRIVATE | MAP_ANONYMOUS, -1, 0)` executed in the
target (`kpatch_mmap_remote`, `src/kpatch_ptrace.c` 517-540): the whole range becomes zero-filled,
whatever was mapped there before is lost. -/
def mmapFixed (m : Mem) (addr len : Nat) : Mem :=
  fun x => if addr ≤ x ∧ x < addr + len then some 0 else m x

/-- Successful `munmap(addr, len)` executed in the target (`kpatch_munmap_remote`,
`src/kpatch_ptrace.c` 564-581). -/
def munmap (m : Mem) (addr len : Nat) : Mem :=
  fun x => if addr ≤ x ∧ x < addr + len then none else m x

end Verif
