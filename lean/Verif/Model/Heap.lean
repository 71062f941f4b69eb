import Verif.Model.Base
/-!
# Model of `src/rlib/min_heap_queue.py`

A heap is a Python list of entries ordered by `address`.  List reads inside the loops are always in range (shown by the
proofs, which only use in-range positions), so they are modelled by a total read with a default.
-/
set_option autoImplicit false
namespace PySOM.HeapQ

/-- `HeapEntry` (`min_heap_queue.py:8-10`) with the payload its subclasses add (`method_bc.py:625-641`). -/
structure Entry where
  address : Nat
  payload : Nat
  deriving DecidableEq, Repr, Inhabited

/-- `heap[i]` for an index in range. -/
def at' (h : List Entry) (i : Nat) : Entry := h.getD i default

/-- The loop of `_siftdown` and the final store (`min_heap_queue.py:35-43`). -/
def siftdownLoop (h : List Entry) (start pos : Nat) (new : Entry) : List Entry :=
  if _hp : pos > start then
    let parentpos := (pos - 1) / 2
    let parent := at' h parentpos
    if new.address < parent.address then siftdownLoop (h.set pos parent) start parentpos new
    else h.set pos new
  else h.set pos new
termination_by pos
decreasing_by omega

/-- `_siftdown` (`min_heap_queue.py:31-43`). -/
def siftdown (h : List Entry) (start pos : Nat) : List Entry := siftdownLoop h start pos (at' h pos)

/-- The loop of `_siftup` (`min_heap_queue.py:51-60`): answers the list and the position of the empty leaf. -/
def siftupLoop (h : List Entry) (endpos pos : Nat) : List Entry × Nat :=
  let childpos := 2 * pos + 1
  if _hc : childpos < endpos then
    let rightpos := childpos + 1
    let child := if rightpos < endpos ∧ ¬ (at' h childpos).address < (at' h rightpos).address then rightpos else childpos
    siftupLoop (h.set pos (at' h child)) endpos child
  else (h, pos)
termination_by endpos - pos
decreasing_by split <;> omega

/-- `_siftup` (`min_heap_queue.py:46-64`). -/
def siftup (h : List Entry) (pos : Nat) : List Entry :=
  let newitem := at' h pos
  let r := siftupLoop h h.length pos
  siftdown (r.1.set r.2 newitem) pos r.2

/-- `heappush` (`min_heap_queue.py:13-16`). -/
def heappush (h : List Entry) (item : Entry) : List Entry :=
  let h := h ++ [item]
  siftdown h 0 (h.length - 1)

/-- `heappop` (`min_heap_queue.py:19-28`); `none` is the `IndexError` of popping from an empty list. -/
def heappop (h : List Entry) : Option (Entry × List Entry) :=
  match h.getLast? with
  | none => none
  | some lastelt =>
    let h' := h.dropLast
    if h' ≠ [] then
      let returnitem := at' h' 0
      some (returnitem, siftup (h'.set 0 lastelt) 0)
    else some (lastelt, h')

/-- Client operations on a queue. -/
inductive Op where
  | push (e : Entry)
  | pop
  deriving DecidableEq, Repr

/-- Run operations, collecting the answers of the pops (`none`: the queue was empty, error). -/
def run (h : List Entry) : List Op → List (Option Entry) × List Entry
  | [] => ([], h)
  | .push e :: ops => run (heappush h e) ops
  | .pop :: ops => match heappop h with
    | none => let r := run h ops; (none :: r.1, r.2)
    | some (e, h') => let r := run h' ops; (some e :: r.1, r.2)

end PySOM.HeapQ
