import Verif.Basic

/-! # Model of `src/rbtree.c` — the red-black tree used for timers, mounted files and pool blocks

The pointer tree is modelled as an algebraic tree.  A node pointer inside the tree together with
its chain of `parent` pointers is a zipper (focus, path).  Each stored node keeps its address, so
that the `node_data` handles of the code (pointers to the owner's node variable) can be modelled.

Failure (`none`) stands for undefined behaviour or a failed `assert` of the C code. -/

namespace Fly.RB

/-- `FLY_RB_RED` / `FLY_RB_BLACK`, src/rbtree.h:77-79. -/
inductive Color where
  | red | black
  deriving DecidableEq, Repr

/-- Payload of `struct fly_rb_node` (src/rbtree.h:43-73): `addr` is the address of the node,
`handle` names the variable that `node_data` points to (`none` = NULL). -/
structure Entry (K D : Type) where
  addr : Nat
  key : K
  data : D
  handle : Option Nat
  deriving DecidableEq, Repr

/-- The tree reachable from `tree->root->node`; `nil` is `nil_node_ptr` (src/rbtree.c:6-12). -/
inductive Tree (K D : Type) where
  | nil
  | node (c : Color) (l : Tree K D) (e : Entry K D) (r : Tree K D)
  deriving DecidableEq, Repr

/-- Which child of its parent a node is (`fly_rb_node_is_left`, src/rbtree.c:162-170). -/
inductive Dir where
  | left | right
  deriving DecidableEq, Repr

/-- One step of the `parent` chain: the parent's colour and payload, on which side the node hangs
(`dir`) and the other child (`sib`). -/
structure Frame (K D : Type) where
  dir : Dir
  color : Color
  entry : Entry K D
  sib : Tree K D

/-- Parent chain, innermost first; `[]` means the node is the root. -/
abbrev Path (K D : Type) := List (Frame K D)

variable {K D : Type}

namespace Tree

/-- `fly_is_black` applied to the node's colour; `nil_node` is black (src/rbtree.c:7-12,142-150). -/
def isBlack : Tree K D → Bool
  | nil => true
  | node .black _ _ _ => true
  | node .red _ _ _ => false

/-- In-order list of the stored nodes (used by specifications only). -/
def toList : Tree K D → List (Entry K D)
  | nil => []
  | node _ l e r => l.toList ++ e :: r.toList

/-- `fly_rb_color_update`: the nil node's colour never changes (src/rbtree.c:225-230). -/
def setColor (c : Color) : Tree K D → Tree K D
  | nil => nil
  | node _ l e r => node c l e r

/-- `fly_rb_rotate_left`, src/rbtree.c:177-199 (`assert(right != nil_node_ptr)` → `none`). -/
def rotL : Tree K D → Option (Tree K D)
  | node c a x (node d b y z) => some (node d (node c a x b) y z)
  | _ => none

/-- `fly_rb_rotate_right`, src/rbtree.c:201-223. -/
def rotR : Tree K D → Option (Tree K D)
  | node c (node d a x b) y z => some (node d a x (node c b y z))
  | _ => none

end Tree

open Tree

/-- Rebuild the parent's node around a child. -/
def Frame.plug (f : Frame K D) (t : Tree K D) : Tree K D :=
  match f.dir with
  | .left => node f.color t f.entry f.sib
  | .right => node f.color f.sib f.entry t

/-- The whole tree seen from a focus and its parent chain. -/
def zip : Path K D → Tree K D → Tree K D
  | [], t => t
  | f :: rest, t => zip rest (f.plug t)

/-- `fly_rb_node_from_key`, src/rbtree.c:272-294: loop from the root comparing `key` to each node. -/
def find (cmp : K → K → Ordering) (k : K) : Tree K D → Option (Entry K D)
  | nil => none
  | node _ l e r =>
    match cmp k e.key with
    | .gt => find cmp k r
    | .eq => some e
    | .lt => find cmp k l

/-- Number of comparisons made by `fly_rb_node_from_key` (src/rbtree.c:279-292). -/
def findSteps (cmp : K → K → Ordering) (k : K) : Tree K D → Nat
  | nil => 0
  | node _ l e r =>
    1 + match cmp k e.key with
        | .gt => findSteps cmp k r
        | .eq => 0
        | .lt => findSteps cmp k l

/-- Result of the descent in `fly_rb_tree_insert_node`. -/
inductive Descent (K D : Type) where
  | equal (e : Entry K D)
  | leaf (p : Path K D)

/-- Descent loop of `fly_rb_tree_insert_node`, src/rbtree.c:348-376. -/
def descend (cmp : K → K → Ordering) (k : K) : Tree K D → Path K D → Descent K D
  | nil, p => .leaf p
  | node c l e r, p =>
    match cmp k e.key with
    | .eq => .equal e
    | .lt => descend cmp k l (⟨.left, c, e, r⟩ :: p)
    | .gt => descend cmp k r (⟨.right, c, e, l⟩ :: p)

/-- src/rbtree.c:391-394 and 410-413: if the node is the inner child of its parent, rotate the
parent so that it becomes the outer child (`side` = the side on which the parent hangs). -/
def insStraighten (side : Dir) (p : Frame K D) (n : Tree K D) : Option (Tree K D) :=
  match side, p.dir with
  | .left, .right => rotL (p.plug n)
  | .right, .left => rotR (p.plug n)
  | _, _ => some (p.plug n)

/-- src/rbtree.c:398 and 417: final rotation of the grandparent. -/
def insRotate (side : Dir) (t : Tree K D) : Option (Tree K D) :=
  match side with
  | .left => rotR t
  | .right => rotL t

/-- Rebalancing loop after insertion, src/rbtree.c:378-424.  `n` is the (red) node, the path its
parent chain.  A red parent without grandparent would make the code rotate `nil_node` and fail
its assertion (`none`).  The code's two mirrored halves (382-399 and 401-419) differ only in the
side, which is passed to `insStraighten` and `insRotate`. -/
def insFix (n : Tree K D) : Path K D → Option (Tree K D)
  | [] => some (n.setColor .black)                       -- loop ends at the root, 423-424
  | [p] =>
    if p.color = .black then some (zip [p] n) else none
  | p :: g :: rest =>
    if p.color = .black then some (zip (p :: g :: rest) n)
    else if g.sib.isBlack then
      -- uncle black, 390-399 / 409-418
      (insStraighten g.dir p n).bind fun pn =>
        (insRotate g.dir (({ g with color := .red }).plug (pn.setColor .black))).map (zip rest)
    else
      -- uncle red, 385-389 / 404-408
      insFix (({ g with color := .red, sib := g.sib.setColor .black }).plug
        (({ p with color := .black }).plug n)) rest

/-- src/rbtree.c:571-578 (node is the left child): sibling's left child red and right child black:
rotate right at the sibling and recolour; otherwise unchanged. -/
def delInnerL (c : Color) (sl : Tree K D) (s : Entry K D) (sr : Tree K D) : Option (Tree K D) :=
  if !sl.isBlack && sr.isBlack then
    match rotR (node c sl s sr) with
    | some (node _ a x (node _ b y z)) => some (node .black a x (node .red b y z))
    | _ => none
  else some (node c sl s sr)

/-- src/rbtree.c:586-593 (node is the right child), mirror image. -/
def delInnerR (c : Color) (sl : Tree K D) (s : Entry K D) (sr : Tree K D) : Option (Tree K D) :=
  if sl.isBlack && !sr.isBlack then
    match rotL (node c sl s sr) with
    | some (node _ (node _ a x b) y z) => some (node .black (node .red a x b) y z)
    | _ => none
  else some (node c sl s sr)

/-- src/rbtree.c:601-610: rotate the parent left; it takes the sibling's colour `d`, the sibling
takes the parent's, the outer nephew becomes black. -/
def delOuterL (n : Tree K D) (p : Frame K D) : Tree K D → Option (Tree K D)
  | nil => none
  | node d a x b =>
    match rotL (({ p with sib := node d a x b }).plug n) with
    | some (node _ (node _ u y v) z w) => some (node p.color (node d u y v) z (w.setColor .black))
    | _ => none

/-- src/rbtree.c:618-627, mirror image. -/
def delOuterR (n : Tree K D) (p : Frame K D) : Tree K D → Option (Tree K D)
  | nil => none
  | node d a x b =>
    match rotR (({ p with sib := node d a x b }).plug n) with
    | some (node _ w z (node _ u y v)) => some (node p.color (w.setColor .black) z (node d u y v))
    | _ => none

/-- One turn of `__fly_rb_delete_rebalance` with a black sibling (src/rbtree.c:538-629).  Returns
the new subtree at the parent's place and whether the loop continues upwards with it.
The "inner nephew red" cases (571-593) jump back and then always take the "outer nephew red" case
(601-627) because the new sibling's outer child is the red old sibling; both turns are done here. -/
def delTurn (n : Tree K D) (p : Frame K D) : Option (Bool × Tree K D) :=
  match p.sib with
  | nil =>
    match p.color with
    | .black => some (true, p.plug n)                                     -- 546-552
    | .red => some (false, ({ p with color := .black }).plug n)           -- 560-563
  | node c sl s sr =>
    if sl.isBlack && sr.isBlack then
      match p.color with
      | .black => some (true, ({ p with sib := node .red sl s sr }).plug n)               -- 546-552
      | .red => some (false, ({ p with color := .black, sib := node .red sl s sr }).plug n) -- 560-563
    else
      match p.dir with
      | .left => (delInnerL c sl s sr).bind fun sib => (delOuterL n p sib).map fun t => (false, t)
      | .right => (delInnerR c sl s sr).bind fun sib => (delOuterR n p sib).map fun t => (false, t)

/-- Loop of `__fly_rb_delete_rebalance` for a black node (src/rbtree.c:499-630).  With a red sibling
(508-536) the parent is rotated and becomes red, and the loop runs again with the inner nephew as
sibling; that nephew being red again, or the loop then going further up, would need a red node with
a red child and is modelled as failure (`none`), proved unreachable. -/
def delLoop (n : Tree K D) : Path K D → Option (Tree K D)
  | [] => some n                                                          -- 500-501
  | p :: rest =>
    match p.sib with
    | node .red sl s sr =>
      match p.dir with
      | .left =>                                                          -- 516-517
        if sl.isBlack then
          match delTurn n { p with color := .red, sib := sl } with
          | some (false, sub) => some (zip rest (node .black sub s sr))
          | _ => none
        else none
      | .right =>                                                         -- 525-526
        if sr.isBlack then
          match delTurn n { p with color := .red, sib := sr } with
          | some (false, sub) => some (zip rest (node .black sl s sub))
          | _ => none
        else none
    | _ =>
      match delTurn n p with
      | some (true, sub) => delLoop sub rest
      | some (false, sub) => some (zip rest sub)
      | none => none

/-- `__fly_rb_delete_rebalance`, src/rbtree.c:488-631. -/
def delFix (n : Tree K D) (p : Path K D) : Option (Tree K D) :=
  if n.isBlack then delLoop n p else some (zip p (n.setColor .black))     -- 490-492

/-- Search the minimum of a subtree keeping the parent chain: `fly_rb_min_from_node`,
src/rbtree.c:83-96. -/
def minPath : Tree K D → Path K D → Option (Color × Entry K D × Tree K D × Path K D)
  | nil, _ => none
  | node c nil e r, p => some (c, e, r, p)
  | node c (node c' l' e' r') e r, p => minPath (node c' l' e' r') (⟨.left, c, e, r⟩ :: p)

/-- The node at a given address with its parent chain (a node pointer in the code). -/
def locate (a : Nat) : Tree K D → Path K D → Option (Color × Tree K D × Entry K D × Tree K D × Path K D)
  | nil, _ => none
  | node c l e r, p =>
    if e.addr = a then some (c, l, e, r, p)
    else
      match locate a l (⟨.left, c, e, r⟩ :: p) with
      | some x => some x
      | none => locate a r (⟨.right, c, e, l⟩ :: p)

/-- State of one index: the tree, `node_count`, and the contents of the owners' handle variables
(`node_data` targets). -/
structure State (K D : Type) where
  tree : Tree K D
  count : Nat
  handles : Nat → Option Nat

/-- `fly_rb_tree_init`, src/rbtree.c:35-44; all handle variables NULL. -/
def State.init : State K D := ⟨nil, 0, fun _ => none⟩

/-- Assign a handle variable; a NULL `node_data` is not written. -/
def setHandle (h : Option Nat) (v : Option Nat) (m : Nat → Option Nat) : Nat → Option Nat :=
  match h with
  | none => m
  | some x => fun y => if y = x then v else m y

/-- `fly_rb_tree_insert` + `fly_rb_tree_insert_node`, src/rbtree.c:296-426.  `a` is the address
returned by malloc for the new node.  On an equal key the new node is freed and the existing one
returned, but the handle variable keeps the freed address (315-317, 351-353).
Returns the new state and the address of the node holding the key. -/
def State.insert (cmp : K → K → Ordering) (s : State K D) (a : Nat) (k : K) (d : D)
    (h : Option Nat) : Option (State K D × Nat) :=
  let e : Entry K D := ⟨a, k, d, h⟩
  let handles := setHandle h (some a) s.handles
  if s.count = 0 then
    some (⟨node .black nil e nil, 1, handles⟩, a)          -- fly_rb_root_init, 71-81, 343-346
  else
    match descend cmp k s.tree [] with
    | .equal e' => some (⟨s.tree, s.count, handles⟩, e'.addr)
    | .leaf p =>
      match insFix (node .red nil e nil) p with
      | some t => some (⟨t, s.count + 1, handles⟩, a)
      | none => none

/-- `fly_rb_delete`, src/rbtree.c:641-771, on the node at address `a`; a pointer that is not in the
tree is undefined behaviour (`none`). -/
def State.delete (s : State K D) (a : Nat) : Option (State K D) :=
  if s.count = 0 then some s                                -- 647-648
  else
    match locate a s.tree [] with
    | none => none
    | some (c, l, e, r, p) =>
      match l, r with
      | nil, nil =>                                         -- 663-692
        let handles := setHandle e.handle none s.handles
        match p with
        | [] => some ⟨nil, 0, handles⟩                       -- fly_rb_root_release, 98-105
        | f :: rest =>
          if c = .black then
            match delFix nil (f :: rest) with
            | some t => some ⟨t, s.count - 1, handles⟩
            | none => none
          else some ⟨zip (f :: rest) nil, s.count - 1, handles⟩
      | node lc ll le lr, nil =>                             -- 693-722
        let handles := setHandle e.handle none s.handles
        match p with
        | [] =>
          -- fly_rb_root: the child becomes a black root; the rebalancing then returns at once
          some ⟨node .black ll le lr, s.count - 1, handles⟩
        | f :: rest =>
          if c = .black then
            match delFix (node lc ll le lr) (f :: rest) with
            | some t => some ⟨t, s.count - 1, handles⟩
            | none => none
          else some ⟨zip (f :: rest) (node lc ll le lr), s.count - 1, handles⟩
      | l, node rc rl re rr =>                               -- 723-764
        match minPath (node rc rl re rr) [] with
        | none => none
        | some (mc, m, mrc, mp) =>
          -- node takes over key, data and handle of the minimum (732-737)
          let e' : Entry K D := ⟨e.addr, m.key, m.data, m.handle⟩
          let handles := setHandle m.handle (some e.addr) (setHandle e.handle none s.handles)
          let path := mp ++ ⟨.right, c, e', l⟩ :: p
          if mc = .black then
            match delFix mrc path with
            | some t => some ⟨t, s.count - 1, handles⟩
            | none => none
          else some ⟨zip path mrc, s.count - 1, handles⟩

end Fly.RB
