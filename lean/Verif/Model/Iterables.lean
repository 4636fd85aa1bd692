import Verif.Model.Distance
import Verif.Model.CausetLinks

/-!
# Arguments of type `Iterable`

`CausetEvent(past=…, future=…)`, `merge`, `add`, `discard`, the set operators and `Antipaths` document arguments of type `Iterable`: a set, list, tuple or causet that can be iterated
again and again, or an iterator (generator, `iter(…)`, `map`, `filter`) that yields its items once.  The other files model these functions for sets and lists; here they are modelled
for both kinds of objects, by what each `for` loop, `set(…)`, `list(…)` or `in` takes from them.
-/

namespace Causets

open Function (update)

/-- An iterable of events with the items it would yield now, in this order.  Simplification: the items of a set are listed in one fixed order (a Python set that is not changed does
not change its iteration order); two different arguments are different objects. -/
inductive Arg
  | again (l : List EId)
  | once (l : List EId)
  deriving DecidableEq, Repr

namespace Arg

/-- what a `for` loop over the object runs over -/
def items : Arg → List EId
  | .again l => l
  | .once l => l

/-- the object after a loop that ran to its end -/
def rest : Arg → Arg
  | .again l => .again l
  | .once _ => .once []

/-- `x in arg` for an object without `__contains__`: takes items up to the first `x`; for lists and sets nothing is taken.  Returns the answer and the object afterwards. -/
def mem (x : EId) : Arg → Bool × Arg
  | .again l => (decide (x ∈ l), .again l)
  | .once l => (decide (x ∈ l), .once ((l.dropWhile (fun y => decide (y ≠ x))).drop 1))

end Arg

namespace Heap

/-- the loops of `merge`, causet.py:233-236: the loop over `futureSet` is run again for each `p` -/
def mergeArgsLoop : List EId → Arg → Heap → Arg × Heap
  | [], F, h => (F, h)
  | p :: ps, F, h => mergeArgsLoop ps F.rest (mergeInner p F.items h)

/-- `merge`, causet.py:223-237, for arbitrary iterables: `set(pastSet) | set(futureSet)` takes what the loops have left -/
def mergeArgs (it : Iter) (P F : Arg) (disjoint : Bool) (h : Heap) : Except Err (Finset EId) × Heap :=
  if disjoint then (h.causetInit it (P.items.toFinset ∪ F.items.toFinset), h)
  else
    let r := mergeArgsLoop P.items F h
    (r.2.causetInit it (P.rest.items.toFinset ∪ r.1.items.toFinset), r.2)

/-- the argument of `add` and `discard`: the causet itself or another iterable -/
inductive EventsArg
  | self
  | arg (a : Arg)

/-- `add`, causet.py:239-249.  `self._events.update(self)` iterates over `self._events` (`__iter__`, causet.py:34-35) and inserts elements that are there already. -/
def causetAddArg (it : Iter) (C : Finset EId) (s : EventsArg) (unlink : Bool) (h : Heap) : Finset EId × Except Err Unit × Heap :=
  match s with
  | .self => causetAdd it C C unlink h
  | .arg a => causetAdd it C a.items.toFinset unlink h

/-- `discard`, causet.py:251-261.  With the causet itself as argument `self._events.difference_update(self)` iterates over the set it removes from (the argument is not the set object
itself, so that CPython does not take its shortcut): the first event of the iteration is removed, then the iterator finds the size changed and raises RuntimeError. -/
def causetDiscardArg (it : Iter) (C : Finset EId) (s : EventsArg) (unlink : Bool) (h : Heap) : Finset EId × Except Err Unit × Heap :=
  match s with
  | .arg a => causetDiscard it C a.items.toFinset unlink h
  | .self =>
    match it.ord [256] C with
    | [] => causetDiscard it C C unlink h
    | x :: _ => (C.erase x, .error .runtimeError, h)

/-- `Antipaths`, causet.py:1055-1091, for an arbitrary iterable `along`: `a in along` (line 1066, only evaluated if `a is b`), `a in along and b in along` (line 1068), `list(along)`
(line 1070), then `index` (lines 1071-1072).  The rest of the function works with the list. -/
def antipathsArg (it : Iter) (h : Heap) (C : Finset EId) (depth : ℕ) (a b : EId) (along : Arg) (distances : Option DMat) : Except Err (List (List EId)) :=
  if a = b then .ok (if (along.mem a).1 then [[a]] else [])
  else if h.isSpacelikeTo a b = true then
    let r1 := along.mem a
    if r1.1 then
      let r2 := r1.2.mem b
      if r2.1 then
        let l := r2.2.items
        if a ∈ l ∧ b ∈ l then h.antipaths it C depth a b l distances
        else .error .valueError
      else .ok []
    else .ok []
  else .ok []

end Heap
end Causets
