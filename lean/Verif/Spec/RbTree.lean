import Mathlib.Order.Defs.LinearOrder
import Mathlib.Data.Nat.Log
import Verif.Model.RbTree
/-
Specification of ordered maps and of balanced red-black trees.
-/
namespace Verif
namespace RbTree
variable {α κ : Type}

/-- All nodes, left to right. -/
def toList : RbTree α → List α
  | .nil => []
  | .node _ l x r => l.toList ++ x :: r.toList

/-- Number of edges on the longest path plus one; 0 for the empty tree. -/
def height : RbTree α → Nat
  | .nil => 0
  | .node _ l _ r => max l.height r.height + 1

/-- Every path from here to a null child has exactly `n` black nodes. -/
def Balanced : RbTree α → Nat → Prop
  | .nil, n => n = 0
  | .node .red l _ r, n => l.Balanced n ∧ r.Balanced n
  | .node .black l _ r, n => ∃ m, n = m + 1 ∧ l.Balanced m ∧ r.Balanced m

/-- No red node has a red child. -/
def NoRedRed : RbTree α → Prop
  | .nil => True
  | .node c l _ r => (c = .red → l.isRed = false ∧ r.isRed = false) ∧ l.NoRedRed ∧ r.NoRedRed

/-- A red-black tree: black root, no red node with a red child, equally many black nodes on every path. -/
def RedBlack (t : RbTree α) : Prop := t.isRed = false ∧ t.NoRedRed ∧ ∃ n, t.Balanced n

end RbTree

/-- Operations of the users of the tree. -/
inductive RbOp (α κ : Type) where
  | insert (x : α) (k : κ)
  | erase (x : α)
  deriving Repr

/-- The finite map the tree should be, as the list of nodes stored: insertion does nothing when the key is present. -/
def RbOp.spec {α κ : Type} [DecidableEq α] [DecidableEq κ] (key : α → κ) (live : List α) : RbOp α κ → List α
  | .insert x k => if live.any (fun y => key y = k) then live else x :: live
  | .erase x => live.filter (· ≠ x)

/-- Correct use: a node is inserted under its own key and is not in the tree yet; a node that is removed
is in the tree. -/
def RbOp.Legal {α κ : Type} (key : α → κ) (live : List α) : RbOp α κ → Prop
  | .insert x k => key x = k ∧ x ∉ live
  | .erase x => x ∈ live

/-- A legal history. -/
def RbLegal {α κ : Type} [DecidableEq α] [DecidableEq κ] (key : α → κ) : List α → List (RbOp α κ) → Prop
  | _, [] => True
  | live, o :: os => o.Legal key live ∧ RbLegal key (o.spec key live) os

/-- The comparison function follows a linear order of the keys: `cmp x k` is negative, zero or positive as `k` is less than,
equal to or greater than the key of `x` (`src/include/rbtree.h` 252-256). -/
def CmpOk {α κ : Type} [LinearOrder κ] (key : α → κ) (cmp : α → κ → Int) : Prop :=
  ∀ x k, (cmp x k < 0 ↔ k < key x) ∧ (cmp x k > 0 ↔ key x < k)

/-- Run an operation of the model. -/
def RbOp.run {α κ : Type} [DecidableEq α] (cmp : α → κ → Int) (t : RbTree α) : RbOp α κ → Option (RbTree α)
  | .insert x k => (t.insert (cmp · k) x).map (·.1)
  | .erase x => t.erase x

/-- Run a history. -/
def runRb {α κ : Type} [DecidableEq α] (cmp : α → κ → Int) (t : RbTree α) : List (RbOp α κ) → Option (RbTree α)
  | [] => some t
  | o :: os => (o.run cmp t).bind fun t' => runRb cmp t' os

end Verif
