import Verif.Model.Lists
/-
Specification for C39: a program with several lists at once, and histories of list operations.
-/
namespace Verif

/-- The lists of a program: for the address of every initialised list head the entries in order. -/
abbrev Lists := Nat → Option (List Nat)

/-- Address `a` is a list head or an entry of some list. -/
def Lists.Used (s : Lists) (a : Nat) : Prop := ∃ hd xs, s hd = some xs ∧ a ∈ hd :: xs

def Lists.upd (s : Lists) (hd : Nat) (v : Option (List Nat)) : Lists := fun a => if a = hd then v else s a

/-- The operations of list.h on a collection of lists. -/
inductive ListOp where
  | init (hd : Nat)
  | add (new hd : Nat)
  | addHead (new hd : Nat)
  | del (e : Nat)
  | replace (old new : Nat)
  | move (e hd : Nat)
  | rotate (hd : Nat)
  | splice (l hd : Nat)
  | spliceTail (l hd : Nat)

/-- What the operation does to the lists, in words of sequences.  After a splice of a non-empty list its head is not
a list any more until it is initialised again. -/
def ListOp.spec (s : Lists) : ListOp → Lists
  | .init hd => s.upd hd (some [])
  | .add new hd => s.upd hd ((s hd).map (· ++ [new]))
  | .addHead new hd => s.upd hd ((s hd).map (new :: ·))
  | .del e => fun a => (s a).map (·.filter (· ≠ e))
  | .replace old new => fun a => (s a).map (·.map fun x => if x = old then new else x)
  | .move e hd => fun a => if a = hd then (s a).map (·.filter (· ≠ e) ++ [e]) else (s a).map (·.filter (· ≠ e))
  | .rotate hd => s.upd hd ((s hd).map fun xs => xs.drop 1 ++ xs.take 1)
  | .splice l hd =>
    match s l, s hd with
    | some [], _ => s
    | some xs, some ys => (s.upd l none).upd hd (some (xs ++ ys))
    | _, _ => s
  | .spliceTail l hd =>
    match s l, s hd with
    | some [], _ => s
    | some xs, some ys => (s.upd l none).upd hd (some (ys ++ xs))
    | _, _ => s

/-- How a program may use the operations: new heads and new entries are not in use, deleted and moved entries are in
some list, heads are lists. -/
def ListOp.Legal (s : Lists) : ListOp → Prop
  | .init hd => ¬ s.Used hd
  | .add new hd => ¬ s.Used new ∧ (s hd).isSome
  | .addHead new hd => ¬ s.Used new ∧ (s hd).isSome
  | .del e => ∃ hd xs, s hd = some xs ∧ e ∈ xs
  | .replace old new => ¬ s.Used new ∧ ∃ hd xs, s hd = some xs ∧ old ∈ xs
  | .move e hd => (s hd).isSome ∧ ∃ hd xs, s hd = some xs ∧ e ∈ xs
  | .rotate hd => (s hd).isSome
  | .splice l hd => l ≠ hd ∧ (s l).isSome ∧ (s hd).isSome
  | .spliceTail l hd => l ≠ hd ∧ (s l).isSome ∧ (s hd).isSome

def ListOp.run (h : Links) : ListOp → Links
  | .init hd => listInit h hd
  | .add new hd => listAdd h new hd
  | .addHead new hd => listAddHead h new hd
  | .del e => listDel h e
  | .replace old new => listReplace h old new
  | .move e hd => listMove h e hd
  | .rotate hd => listRotateLeft h hd
  | .splice l hd => listSplice h l hd
  | .spliceTail l hd => listSpliceTail h l hd

/-- A history of operations, each legal at its time. -/
def ListsLegal : Lists → List ListOp → Prop
  | _, [] => True
  | s, o :: os => o.Legal s ∧ ListsLegal (o.spec s) os

end Verif
