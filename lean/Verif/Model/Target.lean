import Verif.Model.Maps
import Verif.Model.ObjElf
import Verif.Model.PatchElf
import Verif.Model.BuildId
import Verif.Model.Storage
import Verif.Model.Holes
/-
The patch command for one process with one patch file, from the text of its memory map to its memory
afterwards: `process_patch`, `kpatch_apply_patches` (`src/kpatch_patch.c`) with what they call.
-/
namespace Verif

/-- What decides how the command goes on besides the process and the patch file. -/
structure TargetEnv where
  page : Nat
  /-- how much the kernel is willing to read at once -/
  lim : Nat
  qsortP : List Phdr → List Phdr
  qsortS : List DynSym → List DynSym
  /-- calling the resolver of an indirect function in the target -/
  ifunc : BitVec 64 → Option (BitVec 64)
  /-- uninitialised words -/
  junk : Nat → BitVec 32
  /-- the outside of `object_apply_patch` and of the rollback for the k-th object -/
  apply : Nat → ApplyEnv
  undo : Nat → UnapplyEnv
  /-- the remote `mmap` for the k-th object succeeds -/
  mmapOk : Nat → Bool
  /-- address of the node allocated by `vm_hole_split` for the k-th object -/
  fresh : Nat → Nat

/-- `o->previous_hole`, `src/kpatch_process.c` 104-105, 147.  The line of a mapping is identified by its start: no two
lines have the same. -/
def objPrevHole (page : Nat) (lines : List (Nat × Nat)) (o : Obj) : Option Nat :=
  previousHole (o.vmas.map fun v => ((lineHoles page 0 0 none lines)[lines.findIdx fun r => r.1 == v.start]?).join)

/-- Bounds of an object: the start of the first of its mappings, the end of the last
(`object_find_patch_region`, `src/arch/x86/arch_process.c` 60-67). -/
def objStart (o : Obj) : Nat := (o.vmas.head?.map (·.start)).getD 0
/-- See `objStart`. `src/arch/x86/arch_process.c:60-67`. -/
def objEnd (o : Obj) : Nat := (o.vmas.getLast?.map (·.stop)).getD 0

/-- The fields of a program header `elf_object_look_for_buildid` uses (`PT_NOTE` 4), `src/kpatch_elf.c` 119-126. -/
def ElfPhdr.toNote (p : ElfPhdr) : NPhdr := ⟨p.typ == 4, p.offset.toNat, p.memsz.toNat⟩

/-- `kpatch_get_buildid`, `src/kpatch_elf.c` 158-175. -/
def objBuildid (lim : Nat) (m : Mem) (o : Obj) : Option (List Byte) :=
  if !o.isElf then none
  else
    match o.vmas.head? with
    | none => none
    | some v =>
      match objHeaders lim m v.start with
      | none => none
      | some h => lookBuildid lim m v.start (h.phdrs.map ElfPhdr.toNote)

/-- `storage_lookup_patches`, `src/kpatch_storage.c` 431-470, for a storage that is the single patch file: does the
object get the patch? -/
def objSelected (lim : Nat) (m : Mem) (file : List Byte) (o : Obj) : Bool :=
  o.isElf && !kernelName o.name &&
    match objBuildid lim m o with
    | none => false
    | some b =>
      match (loadPatch ⟨fun _ => .absent, fun _ => .absent, fun _ => none⟩ b (.single file)).1 with
      | .found _ => true
      | _ => false

/-- `o->load_offset` and the lookup of library symbols for `kpatch_resolve`. `src/kpatch_patch.c:402-407`. -/
def targetPrep (T : TargetEnv) (us : List MappedObj) (u : MappedObj) : PrepEnv :=
  ⟨u.load, resolveUndefined T.qsortS T.ifunc (us.map MappedObj.lib), T.junk⟩

/-- `kp->kpatch_total_mem_sz`: what `object_apply_patch` asks memory for, `src/kpatch_patch.c` 363-400. -/
def patchMemSize (a : Arch) (page : Nat) (file : List Byte) : Nat :=
  match fileView file with
  | none => 0
  | some v => (layout a page v.undef (totalSizeOf (file.take hdrSize)) v.infoOff v.ninfo).totalMem

/-- The loop of `kpatch_apply_patches`, `src/kpatch_patch.c` 469-496, over the objects of the process, with the gaps
of `kpatch_object_allocate_patch` (`src/kpatch_process.c` 1088-1116).  Result: the memory and the number of patched
objects, `none` = -1. -/
def applyTargets (a : Arch) (ra : BitVec 64 → RelocArch) (T : TargetEnv) (lines : List (Nat × Nat)) (ids : Obj → List (List Byte))
    (sel : Obj → Bool) (file : List Byte) (us : List MappedObj) :
    Nat → List Hole → Mem → List (Obj × MappedObj) → Mem × Option Nat
  | _, _, m, [] => (m, some 0)
  | k, holes, m, (o, u) :: rest =>
    if !sel o || o.isPatch then applyTargets a ra T lines ids sel file us (k + 1) holes m rest
    else
      let al := allocatePatch a T.page (patchMemSize a T.page file) (objStart o) (objEnd o) (objPrevHole T.page lines o) (T.fresh k)
        (T.mmapOk k) holes
      let r := objectApplyFile a (ra u.load) (targetPrep T us u) { T.apply k with page := T.page, region := al.2 } (ids o) file m
      if r.2.2 then
        let s := applyTargets a ra T lines ids sel file us (k + 1) al.1 r.1 rest
        (s.1, s.2.map (· + 1))
      else ((objectUnapply a (T.undo k) true r.2.1 r.1).1, none)

/-- `process_patch`, `src/kpatch_patch.c` 498-605, from `kpatch_process_map_object_files` on: the map of the process, its
objects, the search for patches, and the application.  `m1` is the memory when the map and the objects are read and
`m2` the memory when all threads have been stopped, which happens after that (`kpatch_process_attach`, 557).  `none`: the
command ends before it changes anything. -/
def patchProcess (a : Arch) (ra : BitVec 64 → RelocArch) (T : TargetEnv) (text file : List Byte) (m1 m2 : Mem) :
    Option (Mem × Option Nat) :=
  match mapsLines text.length text, parseProcMaps T.page (objectType T.lim m1) text with
  | .ok maps, .ok pm =>
    match mapObjects a T.lim m1 T.qsortP (BitVec.ofNat 64 T.page) pm.objs with
    | none => none
    | some us =>
      let ids := fun o => (((associate (objBuildid T.lim m1) none pm.objs).find? fun p => p.obj == o).map
        fun p => p.applied.map hdrId).getD []
      if pm.objs.any (objSelected T.lim m1 file) then
        some (applyTargets a ra T (maps.map fun w => (w.start, w.stop)) ids (objSelected T.lim m1 file) file us 0 pm.holes m2
          (pm.objs.zip us))
      else none
  | _, _ => none

end Verif
