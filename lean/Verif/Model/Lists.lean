/-
Model of the intrusive doubly linked lists, src/include/list.h.

A `struct list_head` is identified by its address (a number).  The heap of all links is a pair of functions; an
assignment through a pointer changes one value.  `container_of` (list_entry) is the identity here: an element is
identified with the address of its link.
-/
namespace Verif

/-- The links of all list heads and list entries.  src/include/list.h:16-18 (struct list_head). -/
structure Links where
  next : Nat → Nat
  prev : Nat → Nat

/-- `p->next = v`. Assignments of `src/include/list.h:38-46`. -/
def Links.setNext (h : Links) (p v : Nat) : Links := { h with next := fun a => if a = p then v else h.next a }

/-- `p->prev = v`. Assignments of `src/include/list.h:38-46`. -/
def Links.setPrev (h : Links) (p v : Nat) : Links := { h with prev := fun a => if a = p then v else h.prev a }

/-- src/include/list.h:26-30 (list_init). -/
def listInit (h : Links) (l : Nat) : Links := (h.setNext l l).setPrev l l

/-- src/include/list.h:38-46 (__list_add). -/
def listAddBetween (h : Links) (new prev next : Nat) : Links :=
  (((h.setPrev next new).setNext new next).setPrev new prev).setNext prev new

/-- src/include/list.h:56-59 (list_add_head). -/
def listAddHead (h : Links) (new head : Nat) : Links := listAddBetween h new head (h.next head)

/-- src/include/list.h:70-73 (list_add): at the tail. -/
def listAdd (h : Links) (new head : Nat) : Links := listAddBetween h new (h.prev head) head

/-- src/include/list.h:82-86 (__list_del). -/
def listDelBetween (h : Links) (prev next : Nat) : Links := (h.setPrev next prev).setNext prev next

/-- src/include/list.h:94-102 (__list_del_entry, list_del). -/
def listDel (h : Links) (entry : Nat) : Links := listDelBetween h (h.prev entry) (h.next entry)

/-- src/include/list.h:111-118 (list_replace). -/
def listReplace (h : Links) (old new : Nat) : Links :=
  let h1 := h.setNext new (h.next old)
  let h2 := h1.setPrev (h1.next new) new
  let h3 := h2.setPrev new (h2.prev old)
  h3.setNext (h3.prev new) new

/-- src/include/list.h:125-129 (list_move), 136-141 (list_move_tail): both have this body. -/
def listMove (h : Links) (entry head : Nat) : Links := listAdd (listDel h entry) entry head

/-- src/include/list.h:148-152 (list_is_last). -/
def listIsLast (h : Links) (l head : Nat) : Bool := h.next l == head

/-- src/include/list.h:158-161 (list_empty). -/
def listEmpty (h : Links) (head : Nat) : Bool := h.next head == head

/-- src/include/list.h:186-194 (list_rotate_left). -/
def listRotateLeft (h : Links) (head : Nat) : Links :=
  if listEmpty h head then h else listMove h (h.next head) head

/-- src/include/list.h:200-203 (list_is_singular). -/
def listIsSingular (h : Links) (head : Nat) : Bool := !listEmpty h head && h.next head == h.prev head

/-- src/include/list.h:205-215 (__list_cut_position). -/
def listCut (h : Links) (l head entry : Nat) : Links :=
  let newFirst := h.next entry
  let h1 := h.setNext l (h.next head)
  let h2 := h1.setPrev (h1.next l) l
  let h3 := h2.setPrev l entry
  let h4 := h3.setNext entry l
  let h5 := h4.setNext head newFirst
  h5.setPrev newFirst head

/-- src/include/list.h:217-229 (__list_splice). -/
def listSpliceBetween (h : Links) (l prev next : Nat) : Links :=
  let first := h.next l
  let last := h.prev l
  (((h.setPrev first prev).setNext prev first).setNext last next).setPrev next last

/-- src/include/list.h:236-241 (list_splice). -/
def listSplice (h : Links) (l head : Nat) : Links :=
  if listEmpty h l then h else listSpliceBetween h l head (h.next head)

/-- src/include/list.h:248-254 (list_splice_tail). -/
def listSpliceTail (h : Links) (l head : Nat) : Links :=
  if listEmpty h l then h else listSpliceBetween h l (h.prev head) head

/-- The elements visited by the loop of `list_for_each`, from the cursor `pos`; `fuel` bounds the rounds, and the
answer is `none` when the loop would go on after them.  src/include/list.h:321-322 (list_for_each), 359-362
(list_for_each_entry). -/
def listWalk (h : Links) (head : Nat) : Nat → Nat → Option (List Nat)
  | fuel, pos =>
    if pos = head then some []
    else
      match fuel with
      | 0 => none
      | fuel + 1 => (listWalk h head fuel (h.next pos)).map (pos :: ·)

/-- The entries visited by `list_for_each`, at most `fuel` many. `src/include/list.h:321-323`. -/
def listForEach (h : Links) (head fuel : Nat) : Option (List Nat) := listWalk h head fuel (h.next head)

/-- The same backwards.  src/include/list.h:329-330 (list_for_each_prev), 370-373 (list_for_each_entry_reverse). -/
def listWalkPrev (h : Links) (head : Nat) : Nat → Nat → Option (List Nat)
  | fuel, pos =>
    if pos = head then some []
    else
      match fuel with
      | 0 => none
      | fuel + 1 => (listWalkPrev h head fuel (h.prev pos)).map (pos :: ·)

/-- The entries visited by `list_for_each_prev`, at most `fuel` many. `src/include/list.h:329-331`. -/
def listForEachPrev (h : Links) (head fuel : Nat) : Option (List Nat) := listWalkPrev h head fuel (h.prev head)

/-- `free` of an entry: its two links get any values. For example the body of the loop at `src/kpatch_process.c:606-613`. -/
def listPoison (h : Links) (e : Nat) (junk : Nat × Nat) : Links := (h.setNext e junk.1).setPrev e junk.2

/-- `list_for_each_entry_safe` with a body that deletes and frees some of the entries (`pick`), as all users of this
macro in /repo do; `n` is the saved next entry.  The visited entries and the final links.
src/include/list.h:446-450 (list_for_each_entry_safe). -/
def listWalkSafe (pick : Nat → Bool) (junk : Nat → Nat × Nat) (head : Nat) :
    Nat → Links → Nat → Nat → Option (List Nat × Links)
  | fuel, h, pos, n =>
    if pos = head then some ([], h)
    else
      match fuel with
      | 0 => none
      | fuel + 1 =>
        let h' := if pick pos then listPoison (listDel h pos) pos (junk pos) else h
        (listWalkSafe pick junk head fuel h' n (h'.next n)).map fun r => (pos :: r.1, r.2)

/-- The entries visited by `list_for_each_safe`, at most `fuel` many, and the links after the body has run on each of them. `src/include/list.h:338-340`. -/
def listForEachSafe (pick : Nat → Bool) (junk : Nat → Nat × Nat) (h : Links) (head fuel : Nat) :
    Option (List Nat × Links) :=
  listWalkSafe pick junk head fuel h (h.next head) (h.next (h.next head))

end Verif
