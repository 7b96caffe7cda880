import Verif.Model.Arch
import Verif.Model.Bytes
/-
Gaps of the target's address space and the search for memory for a patch.
Models `process_add_vm_hole`, the gap part of `kpatch_process_parse_proc_maps`, `vm_hole_split`,
`next_hole`, `prev_hole`, `hole_size`, `kpatch_object_allocate_patch` (`src/kpatch_process.c`) and
`object_find_patch_region` (`src/arch/*/arch_process.c`).
-/
namespace Verif

/-- `struct vm_hole`, `src/include/kpatch_process.h` 95-99.  `id` stands for the address of the node:
objects point to nodes (`previous_hole`). -/
structure Hole where
  id : Nat
  start : Nat
  stop : Nat
  deriving DecidableEq, Repr

/-- Subtraction of two `unsigned long`. C arithmetic; used at `src/kpatch_process.c:1080-1085` and in object_find_patch_region, `src/arch/x86/arch_process.c:47-113`. -/
def sub64 (a b : Nat) : Nat := (a + 2 ^ 64 - b) % 2 ^ 64

/-- `hole_size`, `src/kpatch_process.c` 1080-1086 (for a non-NULL hole). -/
def Hole.size (h : Hole) : Nat := sub64 h.stop h.start

/-- The gap part of the loop of `kpatch_process_parse_proc_maps`, `src/kpatch_process.c` 507-549.
Input: the lines of the memory map as (start, end); `holeStart` is the end of the previous mapping and
`next` the name for the next node.  `list_add` appends at the tail (`src/include/list.h` 70-73). -/
def parseHoles (page : Nat) : Nat → Nat → List (Nat × Nat) → List Hole
  | _, _, [] => []
  | holeStart, next, (s, e) :: rest =>
    if sub64 s holeStart > 2 * page then
      ⟨next, holeStart + page, s - page⟩ :: parseHoles page e (next + 1) rest
    else parseHoles page e next rest

/-- The value of the variable `hole` with which each line of the map is passed to
`process_add_object_vma` (`src/kpatch_process.c` 530-547): the last gap found so far. -/
def lineHoles (page : Nat) : Nat → Nat → Option Nat → List (Nat × Nat) → List (Option Nat)
  | _, _, _, [] => []
  | holeStart, next, cur, (s, e) :: rest =>
    if sub64 s holeStart > 2 * page then
      some next :: lineHoles page e (next + 1) (some next) rest
    else cur :: lineHoles page e next cur rest

/-- `o->previous_hole` of an object made of the given lines: set by `process_new_object` and, while it is
NULL, by `object_add_vm_area` (`src/kpatch_process.c` 104-105, 147). -/
def previousHole : List (Option Nat) → Option Nat
  | [] => none
  | none :: rest => previousHole rest
  | some h :: _ => some h

/-- `max_distance` before `memsize` is subtracted: `src/arch/x86/arch_process.c` 54, aarch64 55,
loongarch64 49, riscv64 54. -/
def Arch.maxDistance : Arch → Nat
  | .x86 | .loongarch64 | .riscv64 => 0x80000000
  | .aarch64 => 0x8000000

/-- The result of the search loop: the chosen node, `region_start`, `region_end`. object_find_patch_region, `src/arch/x86/arch_process.c:47-113`. -/
structure Found where
  hole : Hole
  rstart : Nat
  rend : Nat
  deriving DecidableEq, Repr

/-- The branch of the loop that takes the right hole, `src/arch/x86/arch_process.c` 78-84. -/
def takeRight (maxd memsize os : Nat) (r : Hole) : Found :=
  ⟨r, r.start, if sub64 r.stop os ≤ maxd then sub64 r.stop memsize else (os + maxd) % 2 ^ 64⟩

/-- The branch of the loop that takes the left hole, `src/arch/x86/arch_process.c` 91-98. -/
def takeLeft (maxd memsize oe : Nat) (l : Hole) : Found :=
  ⟨l, if sub64 oe l.start ≤ maxd then l.start else if oe > maxd then sub64 oe maxd else 0,
    sub64 l.stop memsize⟩

/-- The loop of `object_find_patch_region`, `src/arch/x86/arch_process.c` 73-101 (the other
architectures are textually the same).  The first list is `left_hole` and the nodes before it (nearest
first), the second `right_hole` and the nodes after it; an empty list is NULL.  The loop runs while both
pointers are non-NULL, so a pointer set to NULL ends it after the current iteration. -/
def searchLoop (maxd memsize os oe : Nat) : List Hole → List Hole → Option Found
  | l :: ls, r :: rs =>
    if sub64 r.start os > maxd then
      -- right_hole = NULL
      if sub64 oe l.stop > maxd then none
      else if l.size > memsize then some (takeLeft maxd memsize oe l)
      else none
    else if r.size > memsize then some (takeRight maxd memsize os r)
    else
      if sub64 oe l.stop > maxd then none
      else if l.size > memsize then some (takeLeft maxd memsize oe l)
      else searchLoop maxd memsize os oe ls rs
  | _, _ => none

/-- The node `prev` and what precedes it (nearest first), and what follows it: walking `prev_hole` and
`next_hole` (`src/kpatch_process.c` 1062-1078) from the node `prev`. -/
def zipAt (prev : Nat) : List Hole → List Hole → Option (List Hole × List Hole)
  | _, [] => none
  | before, h :: rest => if h.id = prev then some (h :: before, rest) else zipAt prev (h :: before) rest

/-- `object_find_patch_region`: `none` is the return value -1UL.  `prev` is `obj->previous_hole`, `os`
and `oe` the start of the first and the end of the last mapping of the object. `src/arch/x86/arch_process.c:47-113`; the copies for the other architectures are `src/arch/aarch64/arch_process.c:47-114`, `src/arch/riscv64/arch_process.c:47-113`, `src/arch/loongarch64/arch_process.c:42-104`. -/
def findRegion (a : Arch) (page memsize os oe : Nat) (prev : Option Nat) (holes : List Hole) :
    Option (Hole × Nat) :=
  match prev with
  | none => none
  | some p =>
    match zipAt p [] holes with
    | none => none
    | some (ls, rs) =>
      match searchLoop (sub64 a.maxDistance memsize) memsize os oe ls rs with
      | none => none
      | some f => if f.rstart = f.rend then none else some (f.hole, roundDown f.rstart page)

/-- `vm_hole_split`, `src/kpatch_process.c` 1031-1060, on the node `id` of the list.  `list_add(&left->list,
&hole->list)` inserts before the node.  `fresh` is the address of the allocated node. -/
def splitHole (page allocStart allocEnd id fresh : Nat) : List Hole → List Hole
  | [] => []
  | h :: rest =>
    if h.id = id then
      let s := sub64 (roundDown allocStart page) page
      let e := roundUp allocEnd page + page
      let right : Hole := ⟨h.id, e, if h.stop > e then h.stop else e⟩
      if s > h.start then ⟨fresh, h.start, s⟩ :: right :: rest else right :: rest
    else h :: splitHole page allocStart allocEnd id fresh rest

/-- `kpatch_object_allocate_patch`, `src/kpatch_process.c` 1088-1116.  The remote `mmap` succeeds with
`MAP_FIXED` at exactly the requested address or fails; it always fails for the unaligned address -1UL.
Result: the new list of gaps and the address. -/
def allocatePatch (a : Arch) (page memsize os oe : Nat) (prev : Option Nat) (fresh : Nat) (mmapOk : Bool)
    (holes : List Hole) : List Hole × Option Nat :=
  match findRegion a page memsize os oe prev holes with
  | none => (holes, none)
  | some (h, addr) =>
    if addr = 0 then (holes, none)
    else if !mmapOk then (holes, none)
    else (splitHole page addr (addr + memsize) h.id fresh holes, some addr)

end Verif
