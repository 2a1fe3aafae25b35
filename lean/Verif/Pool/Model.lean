import Verif.Link.Spec
import Verif.RBTree.Spec

/-! # Memory pools: src/alloc.c

The list of blocks is modelled with its links (Verif.Link), the index of blocks with the red-black tree (Verif.RBTree).
`malloc` returns the addresses given to the operation (an environment that keeps its contract is described in Spec); passing an
address to `free` that is not allocated is undefined behaviour (`none`).  The memory of tree nodes and of the tree itself is not
accounted for, nor is the list of pools of a manager.  A failed `malloc` ends the process (33-45) and is left out. -/

namespace Fly.Pool
open Fly.Link (Links)

/-- A pool: `h` is the address of the pool, whose field `blocks` is the head of the list; `entry` gives the field of every block;
`live` are the allocated addresses.  src/alloc.h:44-70. -/
structure Pool where
  h : Nat
  links : Links
  entry : Nat → Nat
  index : RB.State Nat Nat
  size : Int
  live : List Nat

/-- `__fly_rb_search_block`, src/alloc.c:59-71. -/
def cmp (a b : Nat) : Ordering := if a > b then .gt else if a < b then .lt else .eq

/-- `free`, src/alloc.c:47-56. -/
def free (live : List Nat) (p : Nat) : Option (List Nat) := if p ∈ live then some (live.erase p) else none

/-- `__fly_create_pool`, src/alloc.c:137-152; `h` is allocated. -/
def create (links : Links) (entry : Nat → Nat) (live : List Nat) (h : Nat) : Pool :=
  ⟨h, Fly.Link.init links h, entry, RB.State.init, 0, h :: live⟩

/-- `__fly_palloc`, src/alloc.c:73-100: `b` and `e` are the addresses of the block and its memory, `n` that of the tree node.
The result is the address handed out. -/
def alloc (s : Pool) (b e n : Nat) : Option (Pool × Nat) :=
  (s.index.insert cmp n e b none).map fun i =>
    ({ s with live := e :: b :: s.live, entry := fun x => if x = b then e else s.entry x, index := i.1,
              links := Fly.Link.addTail s.links s.h b, size := s.size + 1 }, e)

/-- `fly_pbfree`, src/alloc.c:161-183. -/
def pbfree (s : Pool) (ptr : Nat) : Option Pool :=
  if s.size = 0 ∨ s.index.count = 0 then some s
  else match RB.find cmp ptr s.index.tree with
    | none => some s
    | some dn =>
      let db := dn.data
      let links := Fly.Link.remove s.links db
      (s.index.delete dn.addr).bind fun index =>
        (free s.live (s.entry db)).bind fun live =>
          (free live db).map fun live => { s with links := links, index := index, live := live, size := s.size - 1 }

/-- The loop of `fly_delete_pool`, src/alloc.c:206-213, at `b`; `none` also if it does not end within `fuel` turns. -/
def deleteLoop (links : Links) (entry : Nat → Nat) (h : Nat) : Nat → Nat → List Nat → Int → Option (List Nat × Int)
  | 0, _, _, _ => none
  | fuel + 1, b, live, size =>
    if b = h then some (live, size)
    else
      let n := links.next b
      (free live (entry b)).bind fun live => (free live b).bind fun live => deleteLoop links entry h fuel n live (size - 1)

/-- `fly_delete_pool`, src/alloc.c:200-219; the allocated addresses that remain, and `block_size` at the end. -/
def delete (s : Pool) (fuel : Nat) : Option (List Nat × Int) :=
  (deleteLoop s.links s.entry s.h fuel (s.links.next s.h) s.live s.size).bind fun r => (free r.1 s.h).map fun live => (live, r.2)

/-- `__fly_rb_tree_release`, src/rbtree.c:46-55: the nodes in the order they are freed. -/
def releaseNodes {K D : Type} : RB.Tree K D → List Nat
  | .nil => []
  | .node _ l e r => releaseNodes l ++ releaseNodes r ++ [e.addr]

end Fly.Pool
