import Verif.Model.PatchFile
/-
The patch storage: a single patch file, or a directory with a cache of the patches already looked up.
Models `src/kpatch_storage.c` 77-130 and 190-365.
-/
namespace Verif

/-- What a path of the storage directory is at the moment it is looked at.  `error` is a path that can neither be
opened nor is reported as missing (`ENOENT`). `src/kpatch_storage.c:193-268`. -/
inductive FsEntry | absent | error | file (content : List Byte)
  deriving DecidableEq, Repr

/-- The storage directory at some moment.  `latest b` is the path `<b>/latest/kpatch.bin`, `flat b` is `<b>.kpatch`
(`pathtemplates`, `src/kpatch_storage.c` 170-173); `level b` is the value of `readlink_patchlevel` (175-195) for the
link `<b>/latest`, `none` when it fails or is negative. -/
structure Fs where
  latest : List Byte → FsEntry
  flat : List Byte → FsEntry
  level : List Byte → Option Nat

/-- `struct kpatch_storage_patch`, `src/include/kpatch_storage.h` 9-24.  `size` is `kpfile.size` with `none` for -1, `patch`
the mapping of the patch file, `none` for a null pointer. -/
structure CachedPatch where
  size : Option Nat
  patch : Option (List Byte)
  level : Option Nat
  deriving DecidableEq, Repr

/-- `kpatch_openat_file`, `src/kpatch_common.c` 13-64: the mapped content (mapping succeeds). -/
def openAt : FsEntry → Option (List Byte)
  | .file c => if c.length < hdrSize then none else some c
  | _ => none

/-- `storage_open_patch`, `src/kpatch_storage.c` 197-234.  Result: the entry (`none` = `PATCH_OPEN_ERROR`; the function
never returns `PATCH_NOT_FOUND`) and the number of files opened.  The store into `user_level` of the private mapping
is at offset 192. -/
def openPatch (fs : Fs) (b : List Byte) : Option CachedPatch × Nat :=
  match openAt (fs.latest b) with
  | some c =>
    if acceptFile c then
      match fs.level b with
      | some l => (some ⟨some c.length, some (setField c 192 4 l), some l⟩, 1)
      | none => (none, 1)
    else (none, 1)
  | none =>
    match openAt (fs.flat b) with
    | some c => if acceptFile c then (some ⟨some c.length, some c, none⟩, 1) else (none, 1)
    | none => (none, 0)

/-- `storage_stat_patch`, `src/kpatch_storage.c` 236-272. -/
def statPatch (fs : Fs) (b : List Byte) : Option CachedPatch :=
  match fs.latest b with
  | .file c =>
    match fs.level b with
    | some l => some ⟨some c.length, none, some l⟩
    | none => none
  | _ =>
    match fs.flat b with
    | .file c => some ⟨some c.length, none, none⟩
    | .absent => some ⟨none, none, none⟩
    | .error => none

/-- A storage: the mapped file, or the cache of a directory (the tree of `src/include/rbtree.h` as the finite map of
C37) with the number of files opened so far for each build id. -/
inductive Storage where
  | single (file : List Byte)
  | dir (cache : List (List Byte × CachedPatch)) (opens : List Byte → Nat)

/-- answer to a lookup of `src/kpatch_storage.c:320-365` -/
inductive Answer | openError | notFound | found (patch : Option (List Byte))
  deriving DecidableEq, Repr

/-- `storage->patch.buildid` of a single file, `src/kpatch_storage.c` 116-119: at most 40 bytes of the header field. -/
def singleBuildid (file : List Byte) : List Byte := (hdrBuildid file).take 40

/-- `storage_get_patch`, `src/kpatch_storage.c` 276-318 (allocation succeeds).  `none` is the null result, `some none`
is `ERR_PATCH`. -/
def getPatch (fs : Fs) (load : Bool) (b : List Byte) : Storage → Option (Option CachedPatch) × Storage
  | .single f =>
    if singleBuildid f = b then (some (some ⟨some f.length, some f, none⟩), .single f) else (none, .single f)
  | .dir cache opens =>
    match cache.lookup b with
    | some p => (some (some p), .dir cache opens)
    | none =>
      let r := if load then openPatch fs b else (statPatch fs b, 0)
      let opens' := fun x => if x = b then opens x + r.2 else opens x
      match r.1 with
      | none => (some none, .dir cache opens')
      | some p => (some (some p), .dir ((b, p) :: cache) opens')

/-- `storage_load_patch`, `src/kpatch_storage.c` 325-345. -/
def loadPatch (fs : Fs) (b : List Byte) (s : Storage) : Answer × Storage :=
  match getPatch fs true b s with
  | (some none, s') => (.openError, s')
  | (none, s') => (.notFound, s')
  | (some (some p), s') => (if p.size.isSome then .found p.patch else .notFound, s')

/-- `storage_have_patch`, `src/kpatch_storage.c` 347-365. -/
def havePatch (fs : Fs) (b : List Byte) (s : Storage) : Answer × Storage :=
  match getPatch fs false b s with
  | (some none, s') => (.openError, s')
  | (none, s') => (.notFound, s')
  | (some (some p), s') => (if p.size.isSome then .found p.patch else .notFound, s')

/-- A sequence of patch loads, each with the state of the file system at that moment: the answers and the
storage afterwards. Calls of `src/kpatch_storage.c:325-345` (storage_load_patch). -/
def loads (s : Storage) : List (Fs × List Byte) → List Answer × Storage
  | [] => ([], s)
  | (fs, b) :: qs =>
    let r := loadPatch fs b s
    let t := loads r.2 qs
    (r.1 :: t.1, t.2)

end Verif
