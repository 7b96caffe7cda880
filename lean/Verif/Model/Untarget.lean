import Verif.Model.Target
/-
The unpatch command for one process, from the text of its memory map to its memory afterwards: `process_unpatch`,
`kpatch_unapply_patches` (`src/kpatch_patch.c`) with what they call.
-/
namespace Verif

/-- `o->name` as the bytes `strcmp` compares, `src/kpatch_patch.c` 754-757. -/
def objNameBytes (o : Obj) : List Byte := o.name.toList.map fun c => BitVec.ofNat 8 c.toNat

/-- `process_unpatch`, `src/kpatch_patch.c` 789-844, with `kpatch_process_map_object_files` and the error of
`kpatch_process_associate_patches` when no patch has the id (`src/kpatch_process.c` 472-475, 581-602).  All threads are
stopped first (811), so there is one memory `m`.  The search for coroutines (819) reads only.  `none`: the command ends before it
changes anything. -/
def unpatchProcess (a : Arch) (T : TargetEnv) (text : List Byte) (pid : Option (List Byte)) (sel : List (List Byte)) (m : Mem) :
    Option (Mem × Option Nat) :=
  match parseProcMaps T.page (objectType T.lim m) text with
  | .ok pm =>
    match mapObjects a T.lim m T.qsortP (BitVec.ofNat 64 T.page) pm.objs with
    | none => none
    | some _ =>
      let ps := associate (objBuildid T.lim m) pid pm.objs
      if pid.isSome && ps.all (·.target.isNone) then none
      else some (unapplyPatches a (objBuildid T.lim m) objNameBytes sel T.undo 0 m ps)
  | _ => none

end Verif
