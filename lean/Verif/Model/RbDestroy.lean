/-
Freeing all nodes of a red-black tree, on the nodes as they lie in memory.  Models `rb_destroy` of `src/include/rbtree.h` 326-353 and
`rb_first` of `src/rbtree.c` 418-428.
-/
namespace Verif

/-- The links of a node; 0 is NULL.  The colour, kept in the low bits of the parent, is left out: `rb_destroy` overwrites it and reads only
`rb_parent`.  `src/include/rbtree.h:38-50` (struct rb_node, rb_parent). -/
structure RbLinks where
  left : Nat
  right : Nat
  parent : Nat
  deriving DecidableEq, Repr

/-- The nodes by address; `none`: no node, or one that has been freed.  `src/include/rbtree.h:38-42` (struct rb_node). -/
abbrev RbHeap := Nat → Option RbLinks

/-- A store to a node.  `src/include/rbtree.h:326-353` (rb_destroy). -/
def RbHeap.set (h : RbHeap) (a : Nat) (v : Option RbLinks) : RbHeap := fun x => if x = a then v else h x

/-- `while (node->rb_left) node = node->rb_left;`; `none`: a node is read that is not there, or no fuel.
`src/include/rbtree.h:342-343` (rb_destroy), `src/rbtree.c:418-428` (rb_first). -/
def rbdLeft : Nat → RbHeap → Nat → Option Nat
  | 0, _, _ => none
  | k + 1, h, a =>
    match h a with
    | none => none
    | some n => if n.left = 0 then some a else rbdLeft k h n.left

/-- `while (parent && node == parent->rb_right) { node = parent; parent = rb_parent(node); } node = parent;`
`src/include/rbtree.h:345-349` (rb_destroy). -/
def rbdClimb : Nat → RbHeap → Nat → Nat → Option Nat
  | 0, _, _, _ => none
  | k + 1, h, node, parent =>
    if parent = 0 then some 0
    else
      match h parent with
      | none => none
      | some n => if node = n.right then rbdClimb k h parent n.parent else some parent

/-- The loop: the nodes that are left, and those that the callback was given, in order.  The callback frees the node.
`src/include/rbtree.h:332-352` (rb_destroy). -/
def rbdLoop : Nat → RbHeap → Nat → Option (RbHeap × List Nat)
  | 0, _, _ => none
  | k + 1, h, node =>
    if node = 0 then some (h, [])
    else
      match h node with
      | none => none
      | some n =>
        let h1 := h.set node none
        if n.right ≠ 0 then
          match h1 n.right with
          | none => none
          | some m =>
            let h2 := h1.set n.right (some { m with parent := n.parent })
            match rbdLeft k h2 n.right with
            | none => none
            | some nd => (rbdLoop k h2 nd).map fun r => (r.1, node :: r.2)
        else
          match rbdClimb k h1 node n.parent with
          | none => none
          | some nd => (rbdLoop k h1 nd).map fun r => (r.1, node :: r.2)

/-- `rb_destroy`, from the pointer to the root.  `src/include/rbtree.h:326-353` (rb_destroy), `src/rbtree.c:418-428` (rb_first). -/
def rbDestroy (fuel : Nat) (h : RbHeap) (root : Nat) : Option (RbHeap × List Nat) :=
  if root = 0 then some (h, [])
  else
    match rbdLeft fuel h root with
    | none => none
    | some nd => rbdLoop fuel h nd

end Verif
