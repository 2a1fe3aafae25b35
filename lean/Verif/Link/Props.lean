import Verif.Link.Lemmas

namespace Fly.Link

/-! ## C54: lists and queues -/

/-- **C54** for lists.  After any legal history, from any contents of memory, a loop over each list visits exactly its elements
in order (and ends), and its backward links give them in reverse. -/
theorem C54_lists (L : Links) (os : List Op) (hl : AllLegal [] os) (h : Nat) (xs : List Nat) (hm : (h, xs) ∈ os.foldl specStep []) :
    (∀ fuel, xs.length < fuel → forEach (os.foldl step L) h fuel = some xs) ∧
    back (os.foldl step L) (xs.length + 1) h = xs.reverse ++ [h] := by
  have hi := inv_run os L [] ⟨by simp [Lists.nodes], by simp⟩ hl
  generalize os.foldl specStep [] = w at *
  obtain ⟨w1, w2, rfl⟩ := List.append_of_mem hm
  obtain ⟨h1, h2⟩ := inv_list_nodup _ w1 w2 h xs hi
  refine ⟨fun fuel hf => walk_chain _ h xs h fuel h1 (List.nodup_cons.1 h2).1 hf, ?_⟩
  rw [back_chain _ _ xs h h rfl h1]
  simp

/-- Two lists; an element moves from one to the other. -/
def demoOps : List Op := [.create 1, .create 2, .addTail 1 10, .addTail 1 11, .addHead 1 12, .addTail 2 20, .remove 10, .addHead 2 10]

example : AllLegal [] demoOps ∧ demoOps.foldl specStep [] = [(1, [12, 11]), (2, [10, 20])] := by
  refine ⟨?_, by decide⟩
  simp [AllLegal, demoOps, Legal, specStep, Lists.upd, Lists.nodes]

example : let L := demoOps.foldl step ⟨fun _ => 0, fun _ => 0⟩
    forEach L 1 5 = some [12, 11] ∧ forEach L 2 5 = some [10, 20] ∧ back L 3 2 = [20, 10, 2] := by decide +kernel

/-- **C54** for queues: moreover the count is the number of elements, every element knows its queue, the queue is found empty
exactly if it is, and its last element is the one pushed last of those still in it. -/
theorem C54_queues (Q : Queues) (os : List QOp) (hl : QAllLegal [] os) (h : Nat) (xs : List Nat)
    (hm : (h, xs) ∈ os.foldl qSpecStep []) :
    let Q' := os.foldl qStep Q
    (∀ fuel, xs.length < fuel → forEach Q'.links h fuel = some xs) ∧
    back Q'.links (xs.length + 1) h = xs.reverse ++ [h] ∧
    Q'.count h = xs.length ∧ (∀ x ∈ xs, Q'.head x = h) ∧ (qEmpty Q' h = true ↔ xs = []) ∧
    qLast Q' h = xs.getLast?.getD h := by
  have hi := qinv_run os Q [] ⟨⟨by simp [Lists.nodes], by simp⟩, by simp⟩ hl
  generalize os.foldl qSpecStep [] = w at *
  obtain ⟨hi, hc⟩ := hi
  have hcl := hc _ hm
  obtain ⟨w1, w2, rfl⟩ := List.append_of_mem hm
  obtain ⟨h1, h2⟩ := inv_list_nodup _ w1 w2 h xs hi
  have hn := (List.nodup_cons.1 h2).1
  refine ⟨fun fuel hf => walk_chain _ h xs h fuel h1 hn hf, ?_, hcl.1, hcl.2, ?_, ?_⟩
  · rw [back_chain _ _ xs h h rfl h1]
    simp
  · unfold qEmpty
    rw [next_first _ xs h h h1]
    cases xs with
    | nil => simp
    | cons x xs =>
      simp only [List.mem_cons, not_or] at hn
      simp
      exact Ne.symm hn.1
  · unfold qLast
    rw [prev_last _ xs h h h1]
    rcases List.eq_nil_or_concat xs with rfl | ⟨ys, z, rfl⟩
    · simp
    · simp [List.getLast_cons]

/-- **C54**: pop takes the element pushed last: what is called a queue is a stack. -/
theorem C54_pop_takes_last (Q : Queues) (os : List QOp) (hl : QAllLegal [] os) (h : Nat) (xs : List Nat) (z : Nat)
    (hm : (h, xs ++ [z]) ∈ os.foldl qSpecStep []) : (qPop (os.foldl qStep Q) h).2 = z := by
  have := (C54_queues Q os hl h (xs ++ [z]) hm).2.2.2.2.2
  simpa [qLast, qPop] using this

def demoQ : List QOp := [.create 1, .create 2, .push 1 10, .push 1 11, .push 2 20, .push 1 12, .remove 11, .push 2 11, .pop 1, .push 1 13]

example : QAllLegal [] demoQ ∧ demoQ.foldl qSpecStep [] = [(1, [10, 13]), (2, [20, 11])] := by
  refine ⟨?_, by decide⟩
  simp [QAllLegal, demoQ, QLegal, qSpecStep, Lists.upd, Lists.nodes]

example : let Q := demoQ.foldl qStep ⟨⟨fun _ => 0, fun _ => 0⟩, fun _ => 77, fun _ => 0⟩
    forEach Q.links 1 5 = some [10, 13] ∧ Q.count 1 = 2 ∧ Q.count 2 = 2 ∧ (qPop Q 1).2 = 13 := by decide +kernel

/-- **C54** refuted for an empty queue: pop takes the head itself and the count becomes negative. -/
theorem C54_pop_empty_refuted (Q : Queues) (os : List QOp) (hl : QAllLegal [] os) (h : Nat)
    (hm : (h, []) ∈ os.foldl qSpecStep []) :
    (qPop (os.foldl qStep Q) h).2 = h ∧ (qPop (os.foldl qStep Q) h).1.count h = -1 := by
  have := C54_queues Q os hl h [] hm
  refine ⟨by simpa [qLast, qPop] using this.2.2.2.2.2, ?_⟩
  simp [qPop, Queues.setCount, this.2.2.1]

example : let Q := [QOp.create 1].foldl qStep ⟨⟨fun _ => 0, fun _ => 0⟩, fun _ => 77, fun _ => 0⟩
    (qPop Q 1).2 = 1 ∧ (qPop Q 1).1.count 1 = -1 := by decide +kernel

/-- **C54** refuted for an element removed twice: the elements stay, but the count is one too small. -/
theorem C54_remove_twice_refuted (Q : Queues) (os : List QOp) (hl : QAllLegal [] os) (h n : Nat) (as bs : List Nat)
    (hm : (h, as ++ n :: bs) ∈ os.foldl qSpecStep []) :
    (qRemove (qRemove (os.foldl qStep Q) n) n).count h = ((as ++ bs).length : Int) - 1 := by
  have h1 := C54_queues Q os hl h _ hm
  have hh := h1.2.2.2.1 n (by simp)
  simp [qRemove, Queues.setCount, hh, h1.2.2.1]
  omega

example : let Q := [QOp.create 1, .push 1 10, .push 1 11].foldl qStep ⟨⟨fun _ => 0, fun _ => 0⟩, fun _ => 77, fun _ => 0⟩
    (qRemove (qRemove Q 10) 10).count 1 = 0 ∧ forEach (qRemove (qRemove Q 10) 10).links 1 5 = some [11] := by decide +kernel

end Fly.Link
