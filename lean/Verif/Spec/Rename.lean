import Verif.Model.Rename
/-
Specification of rename tables: partial maps of names.
-/
namespace Verif

/-- A finite map of names. -/
abbrev NameMap := List Byte → Option (List Byte)

/-- Operations on the table. -/
inductive RenOp where
  | add (src dst : Kpstr)
  | del (src : Kpstr)

/-- What they should do to the map; `none`: the program stops because of a conflict. -/
def RenOp.spec (m : NameMap) : RenOp → Option NameMap
  | .add src dst =>
    if src.text = dst.text then some m
    else
      match m src.text with
      | some d => if d = dst.text then some m else none
      | none => some fun nm => if nm = src.text then some dst.text else m nm
  | .del src => some fun nm => if nm = src.text then none else m nm

def RenOp.run (t : Renames) : RenOp → Option Renames
  | .add src dst => renameAdd t src dst
  | .del src => renameDel t src

def specRen (m : NameMap) : List RenOp → Option NameMap
  | [] => some m
  | o :: os => (o.spec m).bind fun m' => specRen m' os

def runRen (t : Renames) : List RenOp → Option Renames
  | [] => some t
  | o :: os => (o.run t).bind fun t' => runRen t' os

/-- The name after renaming; a new name may have a NUL at its end. -/
def NameMap.apply (m : NameMap) (t : List Byte) : List Byte := ((m t).map fun d => d.takeWhile (· != 0)).getD t

end Verif
