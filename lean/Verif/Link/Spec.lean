import Verif.Link.Model

/-! # What lists and queues are to their users

A user has several lists; each is a head and a sequence of elements. -/

namespace Fly.Link

/-- The lists that exist: head and elements. -/
abbrev Lists := List (Nat × List Nat)

/-- Every node in use. -/
def Lists.nodes (w : Lists) : List Nat := w.flatMap fun l => l.1 :: l.2

/-- Change the elements of one list. -/
def Lists.upd (w : Lists) (h : Nat) (f : List Nat → List Nat) : Lists := w.map fun l => if l.1 = h then (l.1, f l.2) else l

/-- What a user does with lists. -/
inductive Op where
  | create (h : Nat) | addTail (h n : Nat) | addHead (h n : Nat) | remove (n : Nat)
  deriving Repr

/-- Its meaning. -/
def specStep (w : Lists) : Op → Lists
  | .create h => w ++ [(h, [])]
  | .addTail h n => w.upd h fun xs => xs ++ [n]
  | .addHead h n => w.upd h fun xs => n :: xs
  | .remove n => w.map fun l => (l.1, l.2.filter fun x => x ≠ n)

/-- A node is added to an existing list when it is in none, and removed when it is in one. -/
def Legal (w : Lists) : Op → Prop
  | .create h => h ∉ w.nodes
  | .addTail h n => h ∈ w.map (·.1) ∧ n ∉ w.nodes
  | .addHead h n => h ∈ w.map (·.1) ∧ n ∉ w.nodes
  | .remove n => ∃ l ∈ w, n ∈ l.2

def AllLegal : Lists → List Op → Prop
  | _, [] => True
  | w, o :: os => Legal w o ∧ AllLegal (specStep w o) os

def step (L : Links) : Op → Links
  | .create h => init L h
  | .addTail h n => addTail L h n
  | .addHead h n => addHead L h n
  | .remove n => remove L n

/-- What a user does with queues. -/
inductive QOp where
  | create (h : Nat) | push (h n : Nat) | pop (h : Nat) | remove (n : Nat)
  deriving Repr

def qSpecStep (w : Lists) : QOp → Lists
  | .create h => w ++ [(h, [])]
  | .push h n => w.upd h fun xs => xs ++ [n]
  | .pop h => w.upd h List.dropLast
  | .remove n => w.map fun l => (l.1, l.2.filter fun x => x ≠ n)

def QLegal (w : Lists) : QOp → Prop
  | .create h => h ∉ w.nodes
  | .push h n => h ∈ w.map (·.1) ∧ n ∉ w.nodes
  | .pop h => ∃ l ∈ w, l.1 = h ∧ l.2 ≠ []
  | .remove n => ∃ l ∈ w, n ∈ l.2

def QAllLegal : Lists → List QOp → Prop
  | _, [] => True
  | w, o :: os => QLegal w o ∧ QAllLegal (qSpecStep w o) os

def qStep (Q : Queues) : QOp → Queues
  | .create h => qInit Q h
  | .push h n => qPush Q h n
  | .pop h => (qPop Q h).1
  | .remove n => qRemove Q n

/-- Backward links: read from the head against the direction of the list. -/
def back (L : Links) : Nat → Nat → List Nat
  | 0, _ => []
  | k + 1, b => L.prev b :: back L k (L.prev b)

end Fly.Link
