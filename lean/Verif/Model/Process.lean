import Verif.Model.Patch
/-
The view the tool builds of a process, and the commands over all objects of a process.
Models `src/kpatch_process.c` 97-290, 389-478, 480-579 (mappings, objects, applied patches) and
`src/kpatch_patch.c` 469-496, 737-787 (`kpatch_apply_patches`, `kpatch_unapply_patches`).
-/
namespace Verif

/-- One line of `/proc/pid/maps` as parsed in `src/kpatch_process.c` 517-530 and 550: `name` is the last
path component for file mappings, "[anonymous]" when there is no name.  `prot` is the value of `perms2prot`
(`src/kpatch_process.c` 389-401): read 1, write 2, execute 4. -/
structure Mapping where
  start : Nat
  stop : Nat
  prot : Nat
  dev : Nat
  inode : Nat
  name : String
  deriving DecidableEq, Repr

/-- `struct object_file`, the fields set while the map is read. `src/include/kpatch_process.h:60-147`. -/
structure Obj where
  dev : Nat
  inode : Nat
  name : String
  /-- `o->vma` in list order -/
  vmas : List Mapping
  isPatch : Bool
  isElf : Bool
  /-- `o->kpfile.patch` of an applied patch -/
  hdr : List Byte
  deriving DecidableEq, Repr

/-- "KPATCH1" and the final NUL, `src/include/kpatch_file.h` 101. -/
def kpatchMagic : List Byte := [0x4b, 0x50, 0x41, 0x54, 0x43, 0x48, 0x31, 0x00]
/-- "\177ELF" `src/kpatch_process.c:181` -/
def elfMagic : List Byte := [0x7f, 0x45, 0x4c, 0x46]

/-- result of `process_get_object_type` `src/kpatch_process.c:185-229` -/
inductive ObjType | unknown | elf | kpatch (hdr : List Byte)
  deriving DecidableEq, Repr

/-- `process_get_object_type`, `src/kpatch_process.c` 184-226.  `lim` bounds what the kernel delivers; a
failed read gives -1, which the caller treats like an unknown object.  The buffer is 1024 bytes.  `strcmp`
with the magic looks at 8 bytes. -/
def objectType (lim : Nat) (m : Mem) (v : Mapping) : ObjType :=
  match memRead lim m v.start 1024 with
  | none => .unknown
  | some buf =>
    if v.prot = 5 ∧ "[anonymous]".toList.isPrefixOf v.name.toList = true ∧ hdrSize ≤ v.stop - v.start ∧
        buf.take 8 = kpatchMagic then .kpatch buf
    else if buf.take 4 = elfMagic then .elf else .unknown

/-- The object name of an applied patch, `src/kpatch_process.c` 213-214 (`snprintf` of `[kpatch-<buildid>]`). -/
def patchName (buf : List Byte) : String :=
  "[kpatch-" ++ String.ofList ((cstr ((buf.drop 88).take 41)).map fun b => Char.ofNat b.toNat) ++ "]"

/-- The match of `src/kpatch_process.c` 252-254. -/
def sameObject (v : Mapping) (o : Obj) : Bool :=
  (v.dev ≠ 0 && v.inode ≠ 0 && o.dev = v.dev && o.inode = v.inode) || (v.dev = 0 && o.name = v.name)

/-- `object_add_vm_area`, `src/kpatch_process.c` 97-117 (the hole bookkeeping is in `Verif.Model.Holes`):
an area with the same bounds and protection is not added twice. -/
def Obj.addVma (o : Obj) (v : Mapping) : Obj :=
  if o.vmas.any fun w => w.start = v.start ∧ w.stop = v.stop ∧ w.prot = v.prot then o
  else { o with vmas := o.vmas ++ [v] }

/-- `list_for_each_entry_reverse` with an update of the first match (i.e. the last in list order),
`src/kpatch_process.c` 251-257. -/
def updateLast (p : Obj → Bool) (f : Obj → Obj) : List Obj → Option (List Obj)
  | [] => none
  | o :: os =>
    match updateLast p f os with
    | some os' => some (o :: os')
    | none => if p o then some (f o :: os) else none

/-- `process_new_object`, `src/kpatch_process.c` 119-175 with 260-287. -/
def newObject (v : Mapping) : ObjType → Obj
  | .kpatch buf => ⟨v.dev, v.inode, patchName buf, [v], true, false, buf⟩
  | .elf => ⟨v.dev, v.inode, v.name, [v], false, true, []⟩
  | .unknown => ⟨v.dev, v.inode, v.name, [v], false, false, []⟩

/-- `process_add_object_vma`, `src/kpatch_process.c` 231-290 (allocation failures and a bad ELF header, which
abort the command, are not modelled). -/
def addObjectVma (type : Mapping → ObjType) (objs : List Obj) (v : Mapping) : List Obj :=
  match type v with
  | .kpatch buf => objs ++ [newObject v (.kpatch buf)]
  | t =>
    match updateLast (sameObject v) (·.addVma v) objs with
    | some objs' => objs'
    | none => objs ++ [newObject v t]

/-- The loop of `kpatch_process_parse_proc_maps`, `src/kpatch_process.c` 509-566. -/
def parseMaps (type : Mapping → ObjType) (maps : List Mapping) : List Obj :=
  maps.foldl (addObjectVma type) []

/-! ### Applied patches -/

/-- `kpfile.patch->buildid` `src/include/kpatch_file.h:135` -/
def hdrBuildid (hdr : List Byte) : List Byte := cstr ((hdr.drop 88).take 41)
/-- `kpfile.patch->id` `src/include/kpatch_file.h:130` -/
def hdrId (hdr : List Byte) : List Byte := cstr (kpId hdr)

/-- An object together with the patches found for it: `applied_patch` list (headers), and, when it is the
target of an unpatch command, the address and header of the patch to remove. `src/include/kpatch_process.h:60-147`. -/
structure PObj where
  obj : Obj
  applied : List (List Byte) := []
  target : Option (Nat × List Byte) := none
  deriving DecidableEq

/-- `kpatch_object_add_applied_patch`, `src/kpatch_process.c` 1228-1250. -/
def addApplied (applied : List (List Byte)) (hdr : List Byte) : List (List Byte) :=
  if applied.any fun h => hdrId h = hdrId hdr then applied else applied ++ [hdr]

/-- One round of the outer loop of `kpatch_process_associate_patches`, `src/kpatch_process.c` 432-468: the
first object with the build id of the patch gets it. -/
def associateOne (bid : Obj → Option (List Byte)) (pid : Option (List Byte)) (kpta : Nat) (hdr : List Byte) :
    List PObj → List PObj
  | [] => []
  | o :: os =>
    if bid o.obj = some (hdrBuildid hdr) then
      { o with
        applied := addApplied o.applied hdr
        target := if pid = some (hdrId hdr) then some (kpta, hdr) else o.target } :: os
    else o :: associateOne bid pid kpta hdr os

/-- `kpatch_process_associate_patches`, `src/kpatch_process.c` 424-478.  `pid` is the patch id given to the
unpatch command, `none` for the patch command.  The error when no target was found is left to the caller. -/
def associate (bid : Obj → Option (List Byte)) (pid : Option (List Byte)) (objs : List Obj) : List PObj :=
  (objs.filter (·.isPatch)).foldl
    (fun ps o => associateOne bid pid ((o.vmas.map (·.start)).headD 0) o.hdr ps)
    (objs.map fun o => ⟨o, [], none⟩)

/-! ### Commands over the objects of a process -/

/-- One object to patch: what surrounds `object_apply_patch` and its rollback. `src/kpatch_patch.c:470-495` (kpatch_apply_patches). -/
structure ApplyJob where
  env : ApplyEnv
  undo : UnapplyEnv
  ids : List (List Byte)
  file : List Byte

/-- `kpatch_apply_patches`, `src/kpatch_patch.c` 469-496, over the objects that have a patch.  Result: the
memory and the number of patched objects, `none` = -1. -/
def applyPatches (a : Arch) (m : Mem) : List ApplyJob → Mem × Option Nat
  | [] => (m, some 0)
  | j :: js =>
    let r := objectApply a j.env j.ids j.file m
    if r.2.2 then
      let s := applyPatches a r.1 js
      (s.1, s.2.map (· + 1))
    else ((objectUnapply a j.undo true r.2.1 r.1).1, none)

/-- `kpatch_should_unapply_patch`, `src/kpatch_patch.c` 737-760.  `sel` are the build ids or names given by the
user. -/
def shouldUnapply (bid : Obj → Option (List Byte)) (nameBytes : Obj → List Byte) (sel : List (List Byte)) (o : Obj) :
    Bool :=
  if sel.isEmpty then true
  else
    match bid o with
    | none => false
    | some b => sel.any fun s => b = s || nameBytes o = s

/-- `kpatch_unapply_patches`, `src/kpatch_patch.c` 762-787.  `env k` surrounds the removal from the k-th object.
Result: memory and the number of objects, `none` = negative. -/
def unapplyPatches (a : Arch) (bid : Obj → Option (List Byte)) (nameBytes : Obj → List Byte) (sel : List (List Byte))
    (env : Nat → UnapplyEnv) : Nat → Mem → List PObj → Mem × Option Nat
  | _, m, [] => (m, some 0)
  | k, m, o :: os =>
    match o.target with
    | none => unapplyPatches a bid nameBytes sel env (k + 1) m os
    | some (kpta, hdr) =>
      if o.obj.isPatch || o.applied.isEmpty || !shouldUnapply bid nameBytes sel o.obj then
        unapplyPatches a bid nameBytes sel env (k + 1) m os
      else
        let r := objectUnapply a (env k) false
          ⟨kpta, some (hdr.take hdrSize), none, o.applied.any fun h => hdrId h = hdrId hdr⟩ m
        if r.2 then
          let s := unapplyPatches a bid nameBytes sel env (k + 1) r.1 os
          (s.1, s.2.map (· + 1))
        else (r.1, none)

end Verif
