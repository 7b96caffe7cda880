/-
Red-black trees.  Models `src/rbtree.c` and `src/include/rbtree.h`.

A node that the C code reaches by a pointer, and whose parents it can follow, is modelled by a subtree together with
the path up to the root (a list of frames, innermost first): `rb_parent(node)` is the first frame, its other child is
stored in the frame.  A dereference of a null pointer gives `none`.
-/
namespace Verif

/-- `RB_RED`, `RB_BLACK`, `src/include/rbtree.h` 124-125 -/
inductive Color | red | black
  deriving DecidableEq, Repr

/-- A subtree of nodes of type `α` (the addresses of the intrusive `struct rb_node`s). `src/include/rbtree.h:38-48`. -/
inductive RbTree (α : Type) where
  | nil
  | node (c : Color) (l : RbTree α) (x : α) (r : RbTree α)
  deriving DecidableEq, Repr

/-- Which child of its parent a subtree is. `rb_left` and `rb_right`, `src/include/rbtree.h:38-48`. -/
inductive Side | left | right
  deriving DecidableEq, Repr

/-- A parent: on which side of it we are, its colour, itself and its other child. `__rb_parent_color`, `src/include/rbtree.h:38-50`. -/
structure RbFrame (α : Type) where
  side : Side
  c : Color
  x : α
  sib : RbTree α
  deriving DecidableEq, Repr

namespace RbTree
variable {α : Type}

/-- Put a subtree back below a parent. Pointers to children, `src/include/rbtree.h:38-48`. -/
def plug (t : RbTree α) (f : RbFrame α) : RbTree α :=
  match f.side with
  | .left => .node f.c t f.x f.sib
  | .right => .node f.c f.sib f.x t

/-- The whole tree (`root->rb_node`) seen from a subtree and its path. `src/include/rbtree.h:44-48`. -/
def unzip (t : RbTree α) (path : List (RbFrame α)) : RbTree α := path.foldl plug t

/-- `rb_is_red(p)` for a node that may be null in the source's tests `tmp && rb_is_red(tmp)`. `src/include/rbtree.h:132`; used for example at `src/rbtree.c:140-200`. -/
def isRed : RbTree α → Bool
  | .node .red _ _ _ => true
  | _ => false

/-- `if (tmp) rb_set_parent_color(tmp, _, RB_BLACK)`: the colour part. `src/rbtree.c:220-385` (____rb_erase_color). -/
def blacken : RbTree α → RbTree α
  | .node _ l x r => .node .black l x r
  | .nil => .nil

/-- `rb_search_node`, `src/include/rbtree.h` 268-287. -/
def search (cmp : α → Int) : RbTree α → Option α
  | .nil => none
  | .node _ l x r => if cmp x < 0 then search cmp l else if cmp x > 0 then search cmp r else some x

/-- The descent of `rb_insert_node`, `src/include/rbtree.h` 296-310: the path to the null link, or the node found. -/
def descend (cmp : α → Int) : RbTree α → List (RbFrame α) → List (RbFrame α) ⊕ α
  | .nil, path => .inl path
  | .node c l x r, path =>
    if cmp x < 0 then descend cmp l (⟨.left, c, x, r⟩ :: path)
    else if cmp x > 0 then descend cmp r (⟨.right, c, x, l⟩ :: path)
    else .inr x

/-- Cases 2 and 3 of `__rb_insert`, `src/rbtree.c` 136-176 (`s` left: the parent is a left child) and 189-212 (right):
the subtree below the old place of the grandparent.  `nl x nr` is the node, `ps` its side below the parent `p`
with other child `psib`; the grandparent `g` has colour `gc` and other child `u`. -/
def rotateIns (s : Side) (nl : RbTree α) (x : α) (nr : RbTree α) (ps : Side) (p : α) (psib : RbTree α) (gc : Color)
    (g : α) (u : RbTree α) : RbTree α :=
  match s, ps with
  | .left, .right =>
    -- node == parent->rb_right: left rotate at parent, then right rotate at gparent
    .node gc (.node .red psib p (blacken nl)) x (.node .red (blacken nr) g u)
  | .left, .left =>
    -- right rotate at gparent; tmp = parent->rb_right is the node's sibling
    .node gc (.node .red nl x nr) p (.node .red (blacken psib) g u)
  | .right, .left =>
    .node gc (.node .red u g (blacken nl)) x (.node .red (blacken nr) p psib)
  | .right, .right =>
    .node gc (.node .red u g (blacken psib)) p (.node .red nl x nr)

/-- `__rb_insert`, `src/rbtree.c` 99-217: `l x r` is the red node, the path leads to the root. -/
def insertFix (l : RbTree α) (x : α) (r : RbTree α) : List (RbFrame α) → Option (RbTree α)
  | [] => some (.node .black l x r)
  | [p] => if p.c = .black then some (plug (.node .red l x r) p) else none
  | p :: g :: rest =>
    if p.c = .black then some (unzip (.node .red l x r) (p :: g :: rest))
    else
      if isRed g.sib then
        -- case 1: colour flip, continue at gparent
        match plug (.node .red l x r) { p with c := .black }, g.side with
        | pt, .left => insertFix pt g.x (blacken g.sib) rest
        | pt, .right => insertFix (blacken g.sib) g.x pt rest
      else some (unzip (rotateIns g.side l x r p.side p.x p.sib g.c g.x g.sib) rest)

/-- `rb_insert_node`, `src/include/rbtree.h` 290-317, with `rb_link_node` 97-104: the new tree and the node
already there. -/
def insert (cmp : α → Int) (x : α) (t : RbTree α) : Option (RbTree α × Option α) :=
  match descend cmp t [] with
  | .inr y => some (t, some y)
  | .inl path => (insertFix .nil x .nil path).map fun t' => (t', none)

/-- Case 4 of `____rb_erase_color`, `src/rbtree.c` 311-332 (left) and 371-381 (right): `n` is the short subtree, `p` the
parent of colour `pc`, the sibling `sx` has near child `near` and far child `far` (`tmp1`, dereferenced). -/
def eraseCase4 (s : Side) (n : RbTree α) (pc : Color) (p : α) (near : RbTree α) (sx : α) (far : RbTree α) :
    Option (RbTree α) :=
  match far with
  | .nil => none
  | .node _ fl f fr =>
    match s with
    | .left => some (.node pc (.node .black n p near) sx (.node .black fl f fr))
    | .right => some (.node pc (.node .black fl f fr) sx (.node .black near p n))

/-- Cases 2, 3 and 4 of `____rb_erase_color`, `src/rbtree.c` 258-332 and 346-381, for a black sibling: the new subtree at the
place of the parent and whether it is still short of a black node.  `sib` is dereferenced. -/
def eraseCases (s : Side) (n : RbTree α) (pc : Color) (p : α) (sib : RbTree α) : Option (RbTree α × Bool) :=
  match sib with
  | .nil => none
  | .node sc sl sx sr =>
    let near := match s with | .left => sl | .right => sr
    let far := match s with | .left => sr | .right => sl
    if !isRed far then
      if !isRed near then
        -- case 2: the sibling becomes red
        let sib' := .node .red sl sx sr
        match pc with
        | .red => some (match s with | .left => .node .black n p sib' | .right => .node .black sib' p n, false)
        | .black => some (match s with | .left => .node .black n p sib' | .right => .node .black sib' p n, true)
      else
        -- case 3: rotate at the sibling; its near child becomes the sibling of case 4, and it the far child
        match near with
        | .nil => none
        | .node _ nl nx nr =>
          match s with
          | .left => (eraseCase4 s n pc p nl nx (.node sc (blacken nr) sx far)).map (·, false)
          | .right => (eraseCase4 s n pc p nr nx (.node sc far sx (blacken nl))).map (·, false)
    else (eraseCase4 s n pc p near sx far).map (·, false)

/-- One round of `____rb_erase_color`, `src/rbtree.c` 223-384: case 1 (red sibling, `src/rbtree.c` 241-257 and 336-345:
rotate so that the near nephew, dereferenced, becomes the sibling and the parent is red), then the other cases.  In
case 1 the parent is red, so that the round ends the loop.  The side on which the short subtree is, which the code
finds by `node != parent->rb_right`, comes from the frame: the two differ only when both children are null, and then both
dereference null. -/
def eraseRound (n : RbTree α) (f : RbFrame α) : Option (RbTree α × Bool) :=
  match f.sib with
  | .node .red sl sx sr =>
    match f.side with
    | .left =>
      match sl with
      | .nil => none
      | .node _ a y b => (eraseCases .left n .red f.x (.node .black a y b)).map fun r => (.node f.c r.1 sx sr, false)
    | .right =>
      match sr with
      | .nil => none
      | .node _ a y b => (eraseCases .right n .red f.x (.node .black a y b)).map fun r => (.node f.c sl sx r.1, false)
  | sib => eraseCases f.side n f.c f.x sib

/-- The loop of `____rb_erase_color`, `src/rbtree.c` 223-384. -/
def eraseFix (n : RbTree α) : List (RbFrame α) → Option (RbTree α)
  | [] => some n
  | f :: rest =>
    match eraseRound n f with
    | none => none
    | some (t, true) => eraseFix t rest
    | some (t, false) => some (unzip t rest)

/-- The search for the successor in `__rb_erase`, `src/include/rbtree.h` 187-225: leftmost node of a subtree, its
colour, its right child (`child2`) and the path from it to the root of the subtree. -/
def leftmost (c : Color) (l : RbTree α) (x : α) (r : RbTree α) (path : List (RbFrame α)) :
    Color × α × RbTree α × List (RbFrame α) :=
  match l with
  | .nil => (c, x, r, path)
  | .node c' l' x' r' => leftmost c' l' x' r' (⟨.left, c, x, r⟩ :: path)

/-- `__rb_erase` and `rb_erase`, `src/include/rbtree.h` 160-247 and `src/rbtree.c` 410-416, for the node
`c l x r` with the given path.  When the removed node has at most one child, the child takes its colour; otherwise the
successor takes its place and colour, and the successor's right child becomes black. -/
def eraseAt (c : Color) (l r : RbTree α) (path : List (RbFrame α)) : Option (RbTree α) :=
  match l, r with
  | .nil, .nil => if c = .black then eraseFix .nil path else some (unzip .nil path)
  | .nil, .node _ rl rx rr => some (unzip (.node c rl rx rr) path)
  | .node _ ll lx lr, .nil => some (unzip (.node c ll lx lr) path)
  | .node lc ll lx lr, .node rc rl rx rr =>
    match leftmost rc rl rx rr [] with
    | (sc, s, child2, inner) =>
      let path' := inner ++ ⟨.right, c, s, .node lc ll lx lr⟩ :: path
      match child2 with
      | .node _ cl cx cr => some (unzip (.node .black cl cx cr) path')
      | .nil => if sc = .black then eraseFix .nil path' else some (unzip .nil path')

/-- The place of a node, which the C code has as a pointer. The argument of `src/rbtree.c:406-414` (rb_erase). -/
def locate [DecidableEq α] (y : α) : RbTree α → List (RbFrame α) → Option (Color × RbTree α × RbTree α × List (RbFrame α))
  | .nil, _ => none
  | .node c l x r, path =>
    if x = y then some (c, l, r, path)
    else
      match locate y l (⟨.left, c, x, r⟩ :: path) with
      | some p => some p
      | none => locate y r (⟨.right, c, x, l⟩ :: path)

/-- `rb_erase(node, root)`. `src/rbtree.c:406-414` (rb_erase). -/
def erase [DecidableEq α] (y : α) (t : RbTree α) : Option (RbTree α) :=
  match locate y t [] with
  | none => none
  | some (c, l, r, path) => eraseAt c l r path

/-- `rb_first`, `src/rbtree.c` 422-433: node, right child, path (its left child is null). -/
def first (t : RbTree α) (path : List (RbFrame α)) : Option (Color × α × RbTree α × List (RbFrame α)) :=
  match t with
  | .nil => none
  | .node c l x r => some (leftmost c l x r path)

/-- The climb in `rb_next`, `src/rbtree.c` 475-478: the first ancestor of which we are in the left subtree; here with
its right subtree and path. -/
def climb (t : RbTree α) : List (RbFrame α) → Option (RbTree α × Color × α × RbTree α × List (RbFrame α))
  | [] => none
  | f :: rest =>
    match f.side with
    | .left => some (t, f.c, f.x, f.sib, rest)
    | .right => climb (plug t f) rest

/-- `rb_next`, `src/rbtree.c` 448-481. -/
def next (c : Color) (l : RbTree α) (x : α) (r : RbTree α) (path : List (RbFrame α)) :
    Option (RbTree α × Color × α × RbTree α × List (RbFrame α)) :=
  match r with
  | .node rc rl rx rr =>
    match leftmost rc rl rx rr (⟨.right, c, x, l⟩ :: path) with
    | (c', x', r', path') => some (.nil, c', x', r', path')
  | .nil => climb (.node c l x r) path

/-- The iteration `for (n = rb_first(root); n; n = rb_next(n))` as used in `src/kpatch_parse.c` 540-556, for at most `fuel` nodes. -/
def walk : Nat → Option (RbTree α × Color × α × RbTree α × List (RbFrame α)) → List α
  | 0, _ => []
  | _, none => []
  | fuel + 1, some (l, c, x, r, path) => x :: walk fuel (next c l x r path)

/-- All nodes by iteration. `src/rbtree.c:418-474`. -/
def iterate (fuel : Nat) (t : RbTree α) : List α :=
  walk fuel ((first t []).map fun q => (.nil, q.1, q.2.1, q.2.2.1, q.2.2.2))

end RbTree
end Verif
