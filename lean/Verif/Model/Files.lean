import Verif.Model.GenArgs
import Verif.Model.Cc
/-
Model of the table of lines, src/kpatch_io.c, and of the creation of directories for intermediate files, src/kpatch_cc.c.
-/
namespace Verif

/-- `kp_realloc(p, oldsz, newsz)` counted in entries: a new array of `newsz` entries, whose content `junk` is open, into which
the smaller of the two sizes is copied.  `none` where the copy would read past the old array.
`src/kpatch_io.c:16-32` (kp_realloc). -/
def kpRealloc (junk : List (List Byte)) (p : Option (List (List Byte))) (oldsz newsz : Nat) : Option (List (List Byte)) :=
  let p2 := (junk ++ List.replicate newsz []).take newsz
  match p with
  | none => some p2
  | some t =>
    let sz := if oldsz > newsz then newsz else oldsz
    if sz ≤ t.length then some (t.take sz ++ p2.drop sz) else none

/-- The loop of read_file that puts the lines into the table: `sz` and `nr` are the variables `sz` and `nr_lines`, `tab` is
`file->lines`, and the lines are those that fgets still gives.  `none`: a write past the end of the array.  The sizes are
numbers here, which differ from the C type int from 2^27 lines on.  `src/kpatch_io.c:68-84` (read_file). -/
def fillTable (junk : Nat → List (List Byte)) (sz : Nat) (tab : Option (List (List Byte))) (nr : Nat) (lines : List (List Byte)) :
    Option (List (List Byte) × Nat) :=
  let grown := if nr ≥ sz ∨ tab = none then (2 * sz, kpRealloc (junk nr) tab sz (2 * sz)) else (sz, tab)
  match grown.2 with
  | none => none
  | some t =>
    match lines with
    | [] => if 0 < t.length then some (t.set 0 [], nr) else none
    | l :: ls => if nr < t.length then fillTable junk grown.1 (some (t.set nr l)) (nr + 1) ls else none
termination_by lines.length

/-- `file->lines` and `file->nr_lines` after read_file.  `src/kpatch_io.c:45`, `src/kpatch_io.c:67-84` (read_file). -/
def lineTable (junk : Nat → List (List Byte)) (content : List Byte) : Option (List (List Byte) × Nat) :=
  fillTable junk 64 none 1 (readFile content)

/-- What a path names. -/
inductive FsKind where
  | absent
  | dir
  | file
deriving DecidableEq

/-- The directory part of a path: `none` for a name in the working directory or the root, which exist. C library and
kernel; used at `src/kpatch_cc.c:1073` (mkdir). -/
def pathParent (p : CStr) : Option CStr :=
  let d := (p.reverse.dropWhile (· ≠ 47#8)).drop 1
  if 47#8 ∈ p ∧ d ≠ [] then some d.reverse else none

/-- `mkdir(path, 0755)`: `none` for an error that is not EEXIST.  `deny` stands for the reasons of the kernel other than the
ones modelled (permissions, space).  Kernel; used at `src/kpatch_cc.c:1073-1076` (make_dirs). -/
def mkdirTry (deny : CStr → Bool) (fs : CStr → FsKind) (p : CStr) : Option (CStr → FsKind) :=
  if fs p ≠ .absent then some fs
  else if deny p then none
  else if (pathParent p).all (fs · == .dir) then some fun q => if q = p then .dir else fs q
  else none

/-- The loop of make_dirs: `done` is the part of the path before `p`, `rest` what follows.  `none`: the command ends.
`src/kpatch_cc.c:1070-1080` (make_dirs). -/
def makeDirsGo (deny : CStr → Bool) : (fs : CStr → FsKind) → (done rest : CStr) → Option (CStr → FsKind)
  | fs, _, [] => some fs
  | fs, done, c :: rest =>
    if c = 47#8 then
      match mkdirTry deny fs done with
      | none => none
      | some fs' => makeDirsGo deny fs' (done ++ [c]) rest
    else makeDirsGo deny fs (done ++ [c]) rest

/-- `src/kpatch_cc.c:1064-1081` (make_dirs); the first character is not looked at. -/
def makeDirs (deny : CStr → Bool) (fs : CStr → FsKind) (path : CStr) : Option (CStr → FsKind) :=
  makeDirsGo deny fs (path.take 1) (path.drop 1)

end Verif
