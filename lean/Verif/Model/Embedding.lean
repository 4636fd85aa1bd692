import Verif.Model.Causet

/-!
# Embedded causets (embeddedcauset.py) and coordinates of events (causetevent.py:464-533)

The coordinates of an event are `none` if the attribute `_coordinates` has been deleted (`disembed`), otherwise a value of an arbitrary
type `α` (a list of floats in Python: no function in this file but `relabel` looks inside).  The causality function of the spacetime
is a parameter `c : α → α → Bool × Bool`; see Model/Spacetimes.lean for the spacetimes of the library.
-/

namespace Causets

open Function (update)

/-- the event objects together with their coordinates -/
structure World (α : Type) where
  heap : Heap
  crd : EId → Option α

namespace Heap

/-- body of the inner loop of `relate`, embeddedcauset.py:228-233: `r` is the tuple `(isAB, isBA)` -/
def relatePair (r : Bool × Bool) (a b : EId) (h : Heap) : Heap :=
  let h1 : Heap := if r.1 then
    { h with succ := update h.succ a (insert b (h.succ a)), prec := update h.prec b (insert a (h.prec b)) } else h
  if r.2 then
    { h1 with succ := update h1.succ b (insert a (h1.succ b)), prec := update h1.prec a (insert b (h1.prec a)) } else h1

/-- first loop of `relate`, embeddedcauset.py:218-220 -/
def relateClear : List EId → Heap → Heap
  | [], h => h
  | e :: es, h => relateClear es { h with prec := update h.prec e ∅, succ := update h.succ e ∅ }

end Heap

section
variable {α : Type} (c : α → α → Bool × Bool)

/-- inner loop of `relate`, embeddedcauset.py:224-233 (an event without coordinates raises AttributeError) -/
def relateRow (crd : EId → Option α) (a : EId) : List EId → Heap → Except Err Unit × Heap
  | [], h => (.ok (), h)
  | b :: bs, h =>
    match crd a, crd b with
    | some x, some y => relateRow crd a bs (h.relatePair (c x y) a b)
    | _, _ => (.error .attributeError, h)

/-- double loop of `relate`, embeddedcauset.py:223-233 -/
def relateRows (crd : EId → Option α) : List EId → Heap → Except Err Unit × Heap
  | [], h => (.ok (), h)
  | a :: as, h =>
    match relateRow c crd a as h with
    | (.error x, h1) => (.error x, h1)
    | (.ok _, h1) => relateRows crd as h1

/-- `relate`, embeddedcauset.py:211-237 -/
def relate (it : Iter) (C : Finset EId) (link : Bool) (w : World α) : Except Err Unit × World α :=
  match relateRows c w.crd (it.ord [221] C) (Heap.relateClear (it.ord [218] C) w.heap) with
  | (.error x, h1) => (.error x, { w with heap := h1 })
  | (.ok _, h1) =>
    let r := if link then causetLink it C h1 else causetUnlink it C h1
    (r.1, { w with heap := r.2 })

/-- the set comprehension in `create`, embeddedcauset.py:202-205: one new event per coordinate vector, `n` is the number of the first label;
`fmt` is `labelFormat.format` if a format was given -/
def createEvents (it : Iter) (fmt : Option (ℕ → String)) : ℕ → List α → World α → List EId × World α
  | _, [], w => ([], w)
  | n, x :: xs, w =>
    let l : Label := match fmt with
      | none => .int n
      | some f => .str (f n)
    let p := w.heap.newEvent it (some l) [] []
    let w1 : World α := { heap := p.2, crd := update w.crd p.1 (some x) }
    let r := createEvents it fmt (n + 1) xs w1
    (p.1 :: r.1, r.2)

/-- `create`, embeddedcauset.py:189-209: the new event set of the causet, the set returned, the exception if any, the new state -/
def create (it : Iter) (C : Finset EId) (coords : List α) (fmt : Option (ℕ → String)) (doRelate : Bool) (w : World α) :
    Finset EId × Finset EId × Except Err Unit × World α :=
  let r := createEvents it fmt (C.card + 1) coords w
  let C' := C ∪ r.1.toFinset
  if doRelate then
    let q := relate c it C' true r.2
    (C', r.1.toFinset, q.1, q.2)
  else (C', r.1.toFinset, .ok (), r.2)

end

/-- the loop at the end of `relabel`, embeddedcauset.py:250-251: `i` runs from `i` on, `idx` over the rest of `sorted_idx` -/
def relabelLoop (L : List EId) : ℕ → List ℕ → Heap → Heap
  | _, [], h => h
  | i, idx :: rest, h => relabelLoop L (i + 1) rest { h with label := update h.label (L.getD idx 0) (some (.int (i + 1))) }

/-- `relabel`, embeddedcauset.py:239-251.  `key e` is `e.Coordinates[dim]`, `argsort` is numpy's (its order of equal entries is
unspecified, so it is a parameter). -/
def relabel {β : Type} (it : Iter) (C : Finset EId) (key : EId → β) (argsort : List β → List ℕ) (descending : Bool) (h : Heap) : Heap :=
  let L := it.ord [245] C
  let s := argsort (L.map key)
  relabelLoop L 0 (if descending then s.reverse else s) h

/-! ## `Position`, `isEmbedded`, `embed`, `disembed`, `Coordinates`, `CoordinatesDim` -/

/-- the attributes `_coordinates` and `_position` of one event (`none`: the attribute does not exist) -/
structure EmbedAttr (α : Type) where
  coordinates : Option (List α)
  position : Option (List α)

namespace EmbedAttr
variable {α : Type} (s : EmbedAttr α)

/-- `__init__`, causetevent.py:61-62; the keyword arguments default to the empty list -/
def init (coordinates position : Option (List α)) : EmbedAttr α :=
  ⟨some (coordinates.getD []), some (position.getD [])⟩

/-- `Position`, causetevent.py:465-473 -/
def getPosition [Zero α] : List α := match s.position with
  | some p => p
  | none => [0, 0]

/-- setter of `Position`, causetevent.py:475-484 -/
def setPosition (p : List α) : Except Err Unit × EmbedAttr α :=
  if p.length ≠ 2 then (.error .valueError, s) else (.ok (), { s with position := some p })

/-- `isEmbedded`, causetevent.py:486-491 -/
def isEmbedded : Bool := s.coordinates.isSome

/-- `embed`, causetevent.py:493-504 -/
def embed (x : List α) (reembed : Bool) : Except Err Unit × EmbedAttr α :=
  if !reembed && s.isEmbedded then (.error .attributeError, s) else (.ok (), { s with coordinates := some x })

/-- `disembed`, causetevent.py:506-510 -/
def disembed : Except Err Unit × EmbedAttr α := match s.coordinates with
  | none => (.error .attributeError, s)
  | some _ => (.ok (), { s with coordinates := none })

/-- `Coordinates`, causetevent.py:512-523 -/
def getCoordinates : Except Err (List α) := match s.coordinates with
  | none => .error .attributeError
  | some x => .ok x

/-- `CoordinatesDim`, causetevent.py:525-533 -/
def coordinatesDim : ℕ := match s.coordinates with
  | none => 0
  | some x => x.length

end EmbedAttr

end Causets
