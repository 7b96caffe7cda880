import Verif.Model.Hunk
import Verif.Model.Layout
import Verif.Model.MemIter
/-
Applying a patch to an object of the target and removing it again.
Models `object_apply_patch`, `kpatch_apply_patches`, `object_find_applied_patch_info`,
`object_unapply_patch` of `src/kpatch_patch.c`.
-/
namespace Verif

/-! ### Byte layout of `struct kpatch_file` (`src/include/kpatch_file.h` 126-182) -/

/-- `kp->id` is bytes 8..15 of the header. `src/include/kpatch_file.h:130`. -/
def kpId (file : List Byte) : List Byte := (file.drop 8).take 8
/-- offset of `kpatch_offset` in `src/include/kpatch_file.h:128-185`. -/
def offKpatchOffset : Nat := 152
/-- offset of `total_size` in `src/include/kpatch_file.h:128-185`. -/
def offTotalSize : Nat := 160
/-- offset of `jmp_offset` in `src/include/kpatch_file.h:128-185`. -/
def offJmpOffset : Nat := 164
/-- offset of `elf_offset` in `src/include/kpatch_file.h:128-185`. -/
def offElfOffset : Nat := 168
/-- offset of `kpatch_total_mem_sz` (8 bytes) in `src/include/kpatch_file.h:128-185`. -/
def offTotalMem : Nat := 176
/-- offset of `user_undo` (`entries[0]`) in `src/include/kpatch_file.h:128-185`. -/
def offUserUndo : Nat := 184
/-- offset of `user_info` (`entries[1]`) in `src/include/kpatch_file.h:128-185`. -/
def offUserInfo : Nat := 188

/-- The bytes of a C string stored in a fixed field: up to the first NUL. Used for `id` and `buildid` of `src/include/kpatch_file.h:128-185`. -/
def cstr (bs : List Byte) : List Byte := bs.takeWhile (· != 0)

/-! ### Records -/

/-- One `struct kpatch_info` (48 bytes, `src/include/kpatch_file.h` 199-208) as the code reads it. -/
def parseInfo (bs : List Byte) : Info where
  daddr := leVal (bs.take 8)
  saddr := leVal ((bs.drop 8).take 8)
  dlen := leVal ((bs.drop 16).take 4)
  slen := leVal ((bs.drop 20).take 4)
  applied := (leVal ((bs.drop 40).take 4)).testBit 31

/-- `o->info[0..ninfo)` as a view of the ELF image at `off` (`kpatch_elf_load_kpatch_info`,
`src/kpatch_elf.c` 899-927, and every access `o->info[i]`). -/
def parseInfos (image : List Byte) (off : Nat) : Nat → List Info
  | 0 => []
  | n + 1 => parseInfo ((image.drop off).take 48) :: parseInfos image (off + 48) n

/-- What the patcher finds in the section table of the patch (`kpatch_elf_load_kpatch_info`,
`kpatch_get_kpatch_data_offset`, `kpatch_count_undefined`; `src/kpatch_elf.c` 899-952, 490-524). -/
structure ElfView where
  /-- `sh_offset` of `.kpatch.info` -/
  infoOff : Nat
  /-- `sh_size / sizeof(struct kpatch_info)` -/
  ninfo : Nat
  /-- number of undefined global symbols -/
  undef : Nat
  deriving DecidableEq, Repr

/-- The local fields of `struct object_file` that survive until a rollback. `src/include/kpatch_process.h:60-147`. -/
structure LocalObj where
  /-- `o->kpta`, 0 until the remote memory is allocated -/
  kpta : Nat
  /-- the header in `o->kpfile.patch`, `none` = NULL -/
  hdr : Option (List Byte)
  /-- `o->info`, `none` = NULL -/
  infos : Option (List Info)
  /-- `kpatch_object_get_applied_patch_by_id(o, o->kpfile.patch->id)` finds an applied patch -/
  found : Bool

/-- Everything outside the tool that decides how `object_apply_patch` goes on. `src/kpatch_patch.c:332-465` (object_apply_patch). -/
structure ApplyEnv where
  page : Nat
  /-- `malloc` of the duplicate succeeded -/
  dupOk : Bool
  /-- the section table; `none` = no `.kpatch.info` -/
  view : Option ElfView
  /-- `malloc` of the jump table succeeded -/
  jtblOk : Bool
  /-- address returned by the remote `mmap`; `none` = no region or `mmap` failed -/
  region : Option Nat
  /-- `vm_hole_split` succeeded -/
  splitOk : Bool
  /-- the image after `kpatch_resolve` and `kpatch_relocate`; `none` = one of them failed -/
  image : Option (List Byte)
  /-- the jump table after `kpatch_resolve` -/
  jmpTable : List Byte
  /-- how much the kernel is willing to write of the image, header, jump table -/
  wImage : Nat
  wHdr : Nat
  wJmp : Nat
  /-- `patch_ensure_safety(o, ACTION_APPLY_PATCH)`: the target may run while the tool waits -/
  safety : Mem → Mem × Bool
  hunk : Nat → HunkFault
  /-- the final remote `mprotect` succeeded -/
  mprotectOk : Bool

/-- `src/kpatch_patch.c` 364-372: `jmp_offset` is stored only when there is a jump table. -/
def storeJmpOffset (hdr : List Byte) : Option Nat → List Byte
  | some o => setField hdr offJmpOffset 4 o
  | none => hdr

/-- The header after `src/kpatch_patch.c` 363-393 stored the layout into it. -/
def storeLayout (hdr : List Byte) (l : Layout) : List Byte :=
  let h2 := setField (storeJmpOffset hdr l.jmpOffset) offElfOffset 4 l.elfOffset
  let h3 := setField h2 offUserInfo 4 l.userInfo
  let h4 := setField h3 offUserUndo 4 l.userUndo
  setField h4 offTotalMem 8 l.totalMem

/-- `src/kpatch_patch.c` 409-428: write the relocated image, the header and the jump table. -/
def writeParts (a : Arch) (e : ApplyEnv) (l : Layout) (undef totalSize : Nat) (hdr image : List Byte)
    (kpta : Nat) (m : Mem) : Mem × Bool :=
  let w1 := memWrite e.wImage m (kpta + l.elfOffset) (image.take (totalSize - hdrSize))
  if !w1.2 then (w1.1, false) else
  let w2 := memWrite e.wHdr w1.1 kpta hdr
  if !w2.2 then (w2.1, false) else
  match l.jmpOffset with
  | some jo => memWrite e.wJmp w2.1 (kpta + jo) (e.jmpTable.take (jmpTableSize a undef))
  | none => (w2.1, true)

/-- `src/kpatch_patch.c` 409-454: write the parts, make sure no thread is in the old code, install the
jumps, drop the write permission. -/
def installPatch (a : Arch) (e : ApplyEnv) (l : Layout) (v : ElfView) (totalSize : Nat)
    (hdr image : List Byte) (kpta : Nat) (m : Mem) : Mem × LocalObj × Bool :=
  let infos := parseInfos image v.infoOff v.ninfo
  let w := writeParts a e l v.undef totalSize hdr image kpta m
  if !w.2 then (w.1, ⟨kpta, some hdr, some infos, false⟩, false) else
  let s := e.safety w.1
  if !s.2 then (s.1, ⟨kpta, some hdr, some infos, false⟩, false) else
  let h := applyHunks a e.hunk (kpta + l.userUndo) s.1 0 infos
  (h.1, ⟨kpta, some hdr, some h.2.1, false⟩, h.2.2 && e.mprotectOk)

/-- `total_size` of a header. `src/include/kpatch_file.h:128-185`. -/
def totalSizeOf (hdr : List Byte) : Nat := leVal ((hdr.drop offTotalSize).take 4)

/-- `object_apply_patch`, `src/kpatch_patch.c` 331-464, for an object that has a patch file
(`o->skpfile != NULL`, not itself a patch).  `appliedIds` are the ids (as C strings) of the patches
already applied to the object, `file` the patch file.  Result: target memory, local state, "returned 1"
(`false` = returned a negative value).

Simplifications: the remote system calls themselves (`mmap`, `mprotect`, ifunc resolvers) have only
their intended effect here (see C21); a failing `kpatch_resolve`/`kpatch_relocate` leaves the local
records as they were in the file. -/
def objectApply (a : Arch) (e : ApplyEnv) (appliedIds : List (List Byte)) (file : List Byte) (m : Mem) :
    Mem × LocalObj × Bool :=
  if !e.dupOk then (m, ⟨0, none, none, false⟩, false) else
  if appliedIds.contains (cstr (kpId file)) then (m, ⟨0, some (file.take hdrSize), none, true⟩, false) else
  match e.view with
  | none => (m, ⟨0, some (file.take hdrSize), none, false⟩, false)
  | some v =>
    let kpoff := leVal ((file.drop offKpatchOffset).take 4)
    let infos0 := parseInfos (file.drop kpoff) v.infoOff v.ninfo
    if v.undef ≠ 0 && !e.jtblOk then (m, ⟨0, some (file.take hdrSize), some infos0, false⟩, false) else
    let l := layout a e.page v.undef (totalSizeOf (file.take hdrSize)) v.infoOff v.ninfo
    let hdr' := storeLayout (file.take hdrSize) l
    match e.region with
    | none => (m, ⟨0, some hdr', some infos0, false⟩, false)
    | some kpta =>
      let m1 := mmapFixed m kpta l.totalMem
      if !e.splitOk then (m1, ⟨kpta, some hdr', some infos0, false⟩, false) else
      match e.image with
      | none => (m1, ⟨kpta, some hdr', some infos0, false⟩, false)
      | some image => installPatch a e l v (totalSizeOf (file.take hdrSize)) hdr' image kpta m1

/-- The outside of `object_unapply_patch`. `src/kpatch_patch.c:687-735` (object_unapply_patch). -/
structure UnapplyEnv where
  page : Nat
  /-- how the kernel serves the k-th read of the record table -/
  reads : Nat → ReadOutcome
  /-- number of records after which the model gives up: the C loop has no bound, the address space is
  finite -/
  fuel : Nat
  /-- `patch_ensure_safety(o, ACTION_UNAPPLY_PATCH)` -/
  safety : Mem → Mem × Bool
  hunk : Nat → HunkFault
  /-- the remote `munmap` succeeded -/
  munmapOk : Bool

/-- The loop of `object_find_applied_patch_info`, `src/kpatch_patch.c` 648-673: read 48-byte records
until an end record.  `k` counts the reads. -/
def readInfos (reads : Nat → ReadOutcome) (m : Mem) : Nat → MemIter → Nat → Nat → Option (List Info)
  | 0, _, _, _ => none
  | fuel + 1, it, k, addr =>
    match it.peek (reads k) m 48 addr with
    | (_, none) => none
    | (it', some bs) =>
      let i := parseInfo bs
      if i.isEnd then some []
      else (readInfos reads m fuel it' (k + 1) (addr + 48)).map (i :: ·)

/-- `object_find_applied_patch_info`, `src/kpatch_patch.c` 618-684: the records are read from the
target only when they are not known locally. -/
def findInfos (e : UnapplyEnv) (l : LocalObj) (m : Mem) : Option (List Info) :=
  match l.infos with
  | some is => some is
  | none =>
    match l.hdr with
    | none => none
    | some hdr =>
      if !l.found then none else
      readInfos e.reads m e.fuel (MemIter.init e.page) 0 (l.kpta + leVal ((hdr.drop offUserInfo).take 4))

/-- `object_unapply_patch`, `src/kpatch_patch.c` 686-735.  The Boolean is "returned 1". -/
def objectUnapply (a : Arch) (e : UnapplyEnv) (checkFlag : Bool) (l : LocalObj) (m : Mem) : Mem × Bool :=
  match findInfos e l m, l.hdr with
  | some infos, some hdr =>
    let s := e.safety m
    if !s.2 then (s.1, false) else
    let undo := l.kpta + leVal ((hdr.drop offUserUndo).take 4)
    let r := restoreHunks a e.hunk checkFlag undo s.1 0 infos
    if !r.2 then (r.1, false) else
    let len := leVal ((hdr.drop offTotalMem).take 8)
    -- munmap of length 0 fails with EINVAL
    if !e.munmapOk || len == 0 then (r.1, false) else
    (munmap r.1 l.kpta len, true)
  | _, _ => (m, false)

end Verif
