import Verif.Model.Bytes
/-
Model of the script that builds patches from source patches, src/libcare-patch-make.
-/
namespace Verif

/-! ## The sources -/

/-- What `patch -b` saves of a file: its content, or an empty file that stands for a file that did not exist.  GNU patch, used
at `src/libcare-patch-make:145`. -/
inductive Saved (γ : Type) where
  | content (c : γ)
  | placeholder

/-- The source tree: the files, and the files NAME.0.lpmakeorig beside them.  `src/libcare-patch-make:71-81` (restore_origs),
`src/libcare-patch-make:142-146` (build_objects): the number in the name is always 0, because `i` never changes. -/
structure SrcTree (ν γ : Type) where
  files : ν → Option γ
  saved : ν → Option (Saved γ)

/-- A source patch: the files it names, each with what it makes of it (`none`: no file).  A hunk that does not apply is also
a change here; the script does not look at the status. -/
abbrev SrcPatch (ν γ : Type) := List (ν × (Option γ → Option γ))

/-- One file of a patch: the file is saved, over what was saved before, and changed.  `src/libcare-patch-make:145`. -/
def patchFile {ν γ : Type} [DecidableEq ν] (t : SrcTree ν γ) (e : ν × (Option γ → Option γ)) : SrcTree ν γ :=
  { files := fun n => if n = e.1 then e.2 (t.files e.1) else t.files n,
    saved := fun n => if n = e.1 then some (match t.files e.1 with | some c => .content c | none => .placeholder) else t.saved n }

/-- One source patch, whose files are all different.  `src/libcare-patch-make:143-146`. -/
def applySrc {ν γ : Type} [DecidableEq ν] (t : SrcTree ν γ) (p : SrcPatch ν γ) : SrcTree ν γ := p.foldl patchFile t

/-- `restore_origs`, `src/libcare-patch-make` 71-81: every saved file is moved over the file.  `empty` is the content of an empty
file.  File names that the shell or awk would take apart are not modelled. -/
def restoreOrigs {ν γ : Type} (empty : γ) (t : SrcTree ν γ) : SrcTree ν γ :=
  { files := fun n =>
      match t.saved n with
      | some (.content c) => some c
      | some .placeholder => some empty
      | none => t.files n,
    saved := fun _ => none }

/-- One run of the script as far as the sources go: `cut = some k` is a run that is killed when `k` source patches have been
applied, and so does not reach the trap that restores the sources.  The sources from which the original is built come
first in the answer.  `src/libcare-patch-make:83` (trap), `src/libcare-patch-make:113-164` (build_objects). -/
def patchMakeRun {ν γ : Type} [DecidableEq ν] (empty : γ) (t : SrcTree ν γ) (ps : List (SrcPatch ν γ)) (cut : Option Nat) :
    (ν → Option γ) × SrcTree ν γ :=
  let t0 := restoreOrigs empty t
  match cut with
  | some k => (t0.files, (ps.take k).foldl applySrc t0)
  | none => (t0.files, restoreOrigs empty (ps.foldl applySrc t0))

/-- Several runs.  `src/libcare-patch-make` 209-289 (main). -/
def patchMakeRuns {ν γ : Type} [DecidableEq ν] (empty : γ) (t : SrcTree ν γ) (h : List (List (SrcPatch ν γ) × Option Nat)) :
    SrcTree ν γ :=
  h.foldl (fun t r => (patchMakeRun empty t r.1 r.2).2) t

/-! ## The compiler -/

/-- What the name `cc` leads to. -/
inductive CcLink where
  | real
  | wrapper
deriving DecidableEq

/-- One run: what `cc` leads to is remembered, the wrapper put in its place, and what was remembered put back unless one of
the tools fails, which ends the script.  `src/libcare-patch-make:57-58` (prepare_env), `src/libcare-patch-make:101-109`,
`src/libcare-patch-make:276-286` (main). -/
def ccRunLink (l : CcLink) (fails : Bool) : CcLink :=
  let remembered := l
  if fails then .wrapper else remembered

/-! ## The patches -/

/-- An executable of the original build and what becomes of it: whether its patched form has `.kpatch` sections, its build id
(`none`: empty), the exit statuses of the tools, and the file that kpatch_make writes.  `src/libcare-patch-make:166-206`
(build_kpatches). -/
structure BuiltExec (β γ : Type) where
  changed : Bool
  id : Option β
  strip : Nat
  fixup : Nat
  unneeded : Nat
  undo : Nat
  make : Nat
  patch : γ

/-- The loop over the executables.  `root` is the directory of patches by build id, `opt` the option `-b`.  The second
component tells whether the script goes on to its end.  The test after `|| continue` never finds a failure.
`src/libcare-patch-make:171-205` (build_kpatches). -/
def buildKpatches {β γ : Type} [DecidableEq β] (opt : Option β) : (root : β → Option γ) → List (BuiltExec β γ) → (β → Option γ) × Bool
  | root, [] => (root, true)
  | root, e :: es =>
    match e.changed, e.id with
    | true, some own =>
      let b := opt.getD own
      if e.strip ≠ 0 then (root, false)
      else if e.fixup ≠ 0 then buildKpatches opt root es
      else if e.unneeded ≠ 0 then (root, false)
      else if e.make ≠ 0 then (root, false)
      else buildKpatches opt (fun x => if x = b then some e.patch else root x) es
    | _, _ => buildKpatches opt root es

end Verif
