import Verif.Model.PatchElf
/-
The protection of the memory a patch is put into: the remote `mmap` of `kpatch_object_allocate_patch` and the remote
`mprotect` at the end of `object_apply_patch`.
-/
namespace Verif

/-- Permissions of a page (`PROT_READ`, `PROT_WRITE`, `PROT_EXEC`). Arguments at `src/kpatch_process.c:1101-1104`. -/
structure Prot where
  r : Bool
  w : Bool
  x : Bool
  deriving DecidableEq, Repr

/-- Permissions of every byte of the target, `none` where nothing is mapped. The effect of `src/kpatch_ptrace.c:517-562`. -/
def Prots := Nat → Option Prot

/-- Successful `mmap(addr, len, q, MAP_FIXED ..)` or `mprotect(addr, len, q)` in the target: the kernel rounds the length
up to whole pages (`addr` is the start of a page). `src/kpatch_ptrace.c:517-562`. -/
def Prots.put (p : Prots) (page addr len : Nat) (q : Prot) : Prots := fun z =>
  if addr ≤ z ∧ z < addr + roundUp len page then some q else p z

/-- `kpatch_get_kpatch_data_offset`, `src/kpatch_elf.c` 929-952: offset of the first section called `.kpatch.data`, 0
(the field is zero-initialised) without one. -/
def elfDataOffset (img : List Byte) : Nat :=
  (((elfSecIdx img).find? fun i => strcmp (elfSecName img i) (lit ".kpatch.data") == 0).map fun i =>
    (elfShdr img i).offset).getD 0

/-- The length given to the final `mprotect`, `src/kpatch_patch.c` 451-452. -/
def protLength (l : Layout) (data : Nat) : Nat := if data ≠ 0 then l.elfOffset + data else l.totalMem

/-- Permissions after `object_apply_patch` has succeeded (`none`: it has not), `src/kpatch_patch.c` 357-464 with
`src/kpatch_process.c` 1100-1104: all of the memory is mapped readable and writable, then the part before the data is made
readable and executable. -/
def objectApplyProts (a : Arch) (ra : RelocArch) (pe : PrepEnv) (e : ApplyEnv) (ids : List (List Byte)) (file : List Byte) (m : Mem)
    (p : Prots) : Option Prots :=
  if (objectApplyFile a ra pe e ids file m).2.2 then
    match fileView file, e.region with
    | some v, some kpta =>
      let l := layout a e.page v.undef (totalSizeOf (file.take hdrSize)) v.infoOff v.ninfo
      let p1 := p.put e.page kpta l.totalMem ⟨true, true, false⟩
      some (p1.put e.page kpta (protLength l (elfDataOffset (file.drop (leVal ((file.drop offKpatchOffset).take 4))))) ⟨true, false, true⟩)
    | _, _ => none
  else none

end Verif
