import Verif.Model.RbDestroy
/-
A tree as it lies in memory.
-/
namespace Verif

/-- A binary tree of addresses. -/
inductive AddrTree
  | nil
  | node (l : AddrTree) (a : Nat) (r : AddrTree)
  deriving DecidableEq, Repr

namespace AddrTree

/-- The address of the root; 0 for none. -/
def root : AddrTree → Nat
  | nil => 0
  | node _ a _ => a

/-- The addresses in the order of the keys. -/
def inorder : AddrTree → List Nat
  | nil => []
  | node l a r => l.inorder ++ a :: r.inorder

/-- The tree lies in memory below the node `p`. -/
def Laid (h : RbHeap) (p : Nat) : AddrTree → Prop
  | nil => True
  | node l a r => a ≠ 0 ∧ h a = some ⟨l.root, r.root, p⟩ ∧ l.Laid h a ∧ r.Laid h a

end AddrTree
end Verif
