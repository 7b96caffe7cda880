import Verif.Model.Kpstr
import Verif.Model.RbTree
/-
Model of the rename table and of the comparison and rewriting of lines with it, src/kpatch_gensrc.c.
-/
namespace Verif

/-- `struct rename`; the two strings are kept as their texts (the copies made by strdup also contain the rest of the
C string after the name, which is never looked at).  src/kpatch_gensrc.c:131-134. -/
structure Rename where
  src : List Byte
  dst : List Byte
deriving DecidableEq, Repr

/-- The tree `f->renames`. `src/kpatch_gensrc.c:131-135`, `src/include/kpatch_io.h:31`. -/
abbrev Renames := RbTree Rename

/-- src/kpatch_gensrc.c:136-144 (rename_cmp). -/
def renameCmp (r : Rename) (nm : Kpstr) : Int := kpstrcmp (kpz r.src) nm

/-- src/kpatch_gensrc.c:146-157 (rename_find). -/
def renameFind (t : Renames) (nm : Kpstr) : Option Rename := t.search (renameCmp · nm)

/-- `none`: kpfatal, "Rename conflict".  The allocation does not fail.  src/kpatch_gensrc.c:159-182 (rename_add). -/
def renameAdd (t : Renames) (src dst : Kpstr) : Option Renames :=
  if kpstrcmp src dst = 0 then some t
  else
    match renameFind t src with
    | some r2 => if kpstrcmp (kpz r2.dst) dst ≠ 0 then none else some t
    | none => (t.insert (renameCmp · src) ⟨src.text, dst.text⟩).map (·.1)

/-- src/kpatch_gensrc.c:184-194 (rename_del). -/
def renameDel (t : Renames) (src : Kpstr) : Option Renames :=
  match renameFind t src with
  | some r => t.erase r
  | none => some t

/-- The comparison of two tokens: `true` is `continue`.  src/kpatch_gensrc.c:213-226 (strcmp_after_rename). -/
def tokenSame (f0 f1 : Renames) (t0 t1 : Kpstr) : Bool :=
  match renameFind f0 t0, renameFind f1 t1 with
  | some r0, some r1 =>
    if kpstrcmp (kpz r0.dst) (kpz r1.dst) = 0 then true
    else kpstrcmp (kpz r0.dst) t1 = 0 && kpstrcmp (kpz r1.dst) t0 = 0
  | some r0, none => kpstrcmp (kpz r0.dst) t1 = 0
  | none, some _ => false
  | none, none => kpstrcmp t0 t1 = 0

/-- 0: same, 1: different.  src/kpatch_gensrc.c:204-229 (strcmp_after_rename). -/
def strcmpAfterRename (f0 f1 : Renames) (s0 s1 : Option (List Byte)) : Int :=
  match s0, s1 with
  | some a, some b =>
    match h0 : getToken (some a), getToken (some b) with
    | (t0, a'), (t1, b') => if tokenSame f0 f1 t0 t1 then strcmpAfterRename f0 f1 a' b' else 1
  | none, none => 0
  | _, _ => 1
termination_by s0.elim 0 (fun s => s.length + 1)
decreasing_by
  cases a' with
  | none => simp
  | some a' =>
    have : (getToken (some a)).2 = some a' := by rw [h0]
    have := getTokenD_length delims this
    simp only [Option.elim_some]
    omega

/-- The text written to `dst`, whose size is not modelled.  strncat stops at the NUL that a new name may have at its end.  src/kpatch_gensrc.c:231-250 (str_do_rename). -/
def strDoRename (f : Renames) (src : Option (List Byte)) : List Byte :=
  match src with
  | none => []
  | some s =>
    match h : getToken (some s) with
    | (t0, src') =>
      let t := match renameFind f t0 with | some r => kpz (cstr r.dst) | none => t0
      s.takeWhile isBlank ++ t.s.take t.l ++ (t0.s.drop t0.l).takeWhile isBlank ++ strDoRename f src'
termination_by src.elim 0 (fun s => s.length + 1)
decreasing_by
  cases src' with
  | none => simp
  | some a' =>
    have : (getToken (some s)).2 = some a' := by rw [h]
    have := getTokenD_length delims this
    simp only [Option.elim_some]
    omega

end Verif
