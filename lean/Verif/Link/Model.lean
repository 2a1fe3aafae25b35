import Verif.Basic

/-! # Intrusive lists and queues: src/bllist.h, src/queue.h

A node is its address.  The heap gives the fields of every node; each function is the sequence of its assignments. -/

namespace Fly.Link

/-- `struct fly_bllist` at every address, src/bllist.h:4-7. -/
structure Links where
  next : Nat → Nat
  prev : Nat → Nat

/-- `a->next = v` -/
def Links.setNext (L : Links) (a v : Nat) : Links := { L with next := fun x => if x = a then v else L.next x }

/-- `a->prev = v` -/
def Links.setPrev (L : Links) (a v : Nat) : Links := { L with prev := fun x => if x = a then v else L.prev x }

/-- `fly_bllist_init`, src/bllist.h:9-13. -/
def init (L : Links) (b : Nat) : Links := (L.setNext b b).setPrev b b

/-- `fly_bllist_add_tail`, src/bllist.h:15-21. -/
def addTail (L : Links) (h n : Nat) : Links :=
  let L := L.setPrev n (L.prev h)
  let L := L.setNext n h
  let L := L.setNext (L.prev h) n
  L.setPrev h n

/-- `fly_bllist_add_head`, src/bllist.h:23-29. -/
def addHead (L : Links) (h n : Nat) : Links :=
  let L := L.setPrev n h
  let L := L.setNext n (L.next h)
  let L := L.setPrev (L.next h) n
  L.setNext h n

/-- `fly_bllist_remove`, src/bllist.h:31-35. -/
def remove (L : Links) (n : Nat) : Links :=
  let L := L.setNext (L.prev n) (L.next n)
  L.setPrev (L.next n) (L.prev n)

/-- `fly_for_each_bllist` and `fly_for_each_queue`, src/bllist.h:40-41 and src/queue.h:119-120, from `b` on; `none`: the
loop does not end within `fuel` turns. -/
def walk (L : Links) (h : Nat) : Nat → Nat → Option (List Nat)
  | 0, _ => none
  | fuel + 1, b => if b = h then some [] else (walk L h fuel (L.next b)).map (b :: ·)

/-- The nodes a loop over the list at `h` visits. -/
def forEach (L : Links) (h fuel : Nat) : Option (List Nat) := walk L h fuel (L.next h)

/-- `struct fly_queue` at every address, src/queue.h:11-16. -/
structure Queues where
  links : Links
  count : Nat → Int
  head : Nat → Nat

/-- `h->count = v` -/
def Queues.setCount (Q : Queues) (h : Nat) (v : Int) : Queues := { Q with count := fun x => if x = h then v else Q.count x }

/-- `x->head = h` -/
def Queues.setHead (Q : Queues) (x h : Nat) : Queues := { Q with head := fun y => if y = x then h else Q.head y }

/-- `fly_queue_init`, src/queue.h:99-105 (and `fly_queue_empty`, 106-109). -/
def qInit (Q : Queues) (h : Nat) : Queues :=
  let Q := Q.setCount h 0
  let Q := { Q with links := (Q.links.setNext h h).setPrev h h }
  Q.setHead h h

/-- `fly_queue_push`, src/queue.h:23-30. -/
def qPush (Q : Queues) (h n : Nat) : Queues :=
  let Q := { Q with links := Q.links.setPrev n (Q.links.prev h) }
  let Q := { Q with links := Q.links.setNext n h }
  let Q := { Q with links := Q.links.setNext (Q.links.prev h) n }
  let Q := { Q with links := Q.links.setPrev h n }
  let Q := Q.setCount h (Q.count h + 1)
  Q.setHead n h

/-- `fly_queue_pop`, src/queue.h:32-40. -/
def qPop (Q : Queues) (h : Nat) : Queues × Nat :=
  let l := Q.links.prev h
  let Q := { Q with links := Q.links.setNext (Q.links.prev l) (Q.links.next l) }
  let Q := { Q with links := Q.links.setPrev (Q.links.next l) (Q.links.prev l) }
  (Q.setCount h (Q.count h - 1), l)

/-- `fly_queue_remove`, src/queue.h:92-97. -/
def qRemove (Q : Queues) (x : Nat) : Queues :=
  let Q := { Q with links := Q.links.setPrev (Q.links.next x) (Q.links.prev x) }
  let Q := { Q with links := Q.links.setNext (Q.links.prev x) (Q.links.next x) }
  Q.setCount (Q.head x) (Q.count (Q.head x) - 1)

/-- `fly_is_queue_empty`, src/queue.h:114-117. -/
def qEmpty (Q : Queues) (h : Nat) : Bool := Q.links.next h == h

/-- `fly_queue_last`, src/queue.h:42-45. -/
def qLast (Q : Queues) (h : Nat) : Nat := Q.links.prev h

end Fly.Link
