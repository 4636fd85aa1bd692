import Verif.Model.Base

/-!
# `CausetEvent` (causetevent.py)

Simplification used throughout: `Past`, `Future`, `LinkPast`, … return the *values* of the internal sets;
in Python they return the internal set objects themselves, so a caller could mutate them. Such
mutation by the caller is not modelled.
-/

namespace Causets

open Function (update)

namespace Heap

variable (h : Heap)

/-! ## Comparison, cones (causetevent.py:187-197, 252-256, 264-352) -/

/-- `__lt__`, causetevent.py:187-188 -/
def lt (a b : EId) : Bool := decide (a ∈ h.prec b)

/-- `__le__`, causetevent.py:190-191 -/
def le (a b : EId) : Bool := decide (a = b) || decide (a ∈ h.prec b)

/-- `__gt__`, causetevent.py:193-194 -/
def gt (a b : EId) : Bool := decide (b ∈ h.prec a)

/-- `__ge__`, causetevent.py:196-197 -/
def ge (a b : EId) : Bool := decide (a = b) || decide (b ∈ h.prec a)

/-- `isCausalTo`, causetevent.py:252-256 -/
def isCausalTo (a b : EId) : Bool := h.le a b || h.gt a b

/-- `isSpacelikeTo`, causetevent.py:264-269 -/
def isSpacelikeTo (a b : EId) : Bool :=
  decide (b ≠ a) && decide (b ∉ h.prec a) && decide (b ∉ h.succ a)

/-- `Past`, causetevent.py:275-281 -/
def past (e : EId) : Finset EId := h.prec e

/-- `Future`, causetevent.py:283-289 -/
def future (e : EId) : Finset EId := h.succ e

/-- `Cone`, causetevent.py:291-297 -/
def cone (e : EId) : Finset EId := h.prec e ∪ {e} ∪ h.succ e

/-- `PresentOrPast`, causetevent.py:299-305 -/
def presentOrPast (e : EId) : Finset EId := h.prec e ∪ {e}

/-- `PresentOrFuture`, causetevent.py:307-313 -/
def presentOrFuture (e : EId) : Finset EId := h.succ e ∪ {e}

/-- `Spacelike`, causetevent.py:315-320 -/
def spacelike (e : EId) (s : Finset EId) : Finset EId := s \ h.cone e

/-- `PastCard`, causetevent.py:322-327 -/
def pastCard (e : EId) : ℕ := (h.prec e).card

/-- `FutureCard`, causetevent.py:329-334 -/
def futureCard (e : EId) : ℕ := (h.succ e).card

/-- `ConeCard`, causetevent.py:336-342 -/
def coneCard (e : EId) : ℕ := (h.prec e).card + (h.succ e).card + 1

/-- `SpacelikeCard`, causetevent.py:344-352 (Python integers: the subtraction is in ℤ) -/
def spacelikeCard (e : EId) (s : Finset EId) : ℤ :=
  if e ∈ s then (((s \ h.prec e) \ h.succ e).card : ℤ) - 1
  else (((s \ h.prec e) \ h.succ e).card : ℤ)

/-! ## Links -/

/-- `hasBeenLinked`, causetevent.py:69-74 -/
def hasBeenLinked (e : EId) : Bool := (h.lprec e).isSome && (h.lsucc e).isSome

/-- `isLink`, causetevent.py:220-230: `not (a._succ & b._prec)` (does not test `a < b`). -/
def isLink (a b : EId) : Bool := decide (h.succ a ∩ h.prec b = ∅)

/-- first comprehension in `link`, causetevent.py:208-209 -/
def pastLinks (e : EId) : Finset EId := (h.prec e).filter (fun x => h.isLink x e)

/-- second comprehension in `link`, causetevent.py:210-211 -/
def futureLinks (e : EId) : Finset EId := (h.succ e).filter (fun x => h.isLink e x)

/-- `link`, causetevent.py:199-211 -/
def link (e : EId) : Heap :=
  { h with lprec := update h.lprec e (some (h.pastLinks e))
           lsucc := update h.lsucc e (some (h.futureLinks e)) }

/-- `unlink`, causetevent.py:213-218: two `delattr`, each raising `AttributeError` if the attribute is
missing (the heap at that moment is kept). -/
def unlink (e : EId) : Except Err Unit × Heap :=
  match h.lprec e with
  | none => (.error .attributeError, h)
  | some _ =>
    let h1 : Heap := { h with lprec := update h.lprec e none }
    match h1.lsucc e with
    | none => (.error .attributeError, h1)
    | some _ => (.ok (), { h1 with lsucc := update h1.lsucc e none })

/-- `_addToPast`, causetevent.py:76-89 -/
def addToPast (self other : EId) : Bool × Heap :=
  if other ∈ h.prec self then (false, h)
  else
    let h1 : Heap :=
      if h.hasBeenLinked self && h.isLink other self then
        { h with lprec := update h.lprec self
                  ((h.lprec self).map (fun s => insert other (s \ h.prec other))) }
      else h
    (true, { h1 with prec := update h1.prec self (insert other (h1.prec self)) })

/-- `_addToFuture`, causetevent.py:91-104 -/
def addToFuture (self other : EId) : Bool × Heap :=
  if other ∈ h.succ self then (false, h)
  else
    let h1 : Heap :=
      if h.hasBeenLinked self && h.isLink self other then
        { h with lsucc := update h.lsucc self
                  ((h.lsucc self).map (fun s => insert other (s \ h.succ other))) }
      else h
    (true, { h1 with succ := update h1.succ self (insert other (h1.succ self)) })

/-- `_discard`, causetevent.py:106-126.  (`other in self._lprec` is only evaluated when both link
attributes exist.) -/
def discard (self other : EId) : Bool × Heap :=
  if other ∈ h.prec self then
    let h1 : Heap :=
      if h.hasBeenLinked self && decide (other ∈ (h.lprec self).getD ∅) then
        { h with
          lprec := update h.lprec self
            ((h.lprec self).map (fun s =>
              (s ∪ (h.prec other).filter (fun e => h.isLink e self)).erase other)) }
      else h
    (true, { h1 with prec := update h1.prec self ((h1.prec self).erase other) })
  else if other ∈ h.succ self then
    let h1 : Heap :=
      if h.hasBeenLinked self && decide (other ∈ (h.lsucc self).getD ∅) then
        { h with
          lsucc := update h.lsucc self
            ((h.lsucc self).map (fun s =>
              (s ∪ (h.succ other).filter (fun e => h.isLink self e)).erase other)) }
      else h
    (true, { h1 with succ := update h1.succ self ((h1.succ self).erase other) })
  else (false, h)

/-- `disjoin`, causetevent.py:128-139.  The two loops run over the set returned by `Cone`
(contexts `[e, 0]` and `[e, 1]`). -/
def disjoin (it : Iter) (e : EId) : Except Err Unit × Heap :=
  match h.unlink e with
  | (.error x, h1) => (.error x, h1)
  | (.ok _, h1) =>
    let h2 := (it.ord [e, 0] (h1.cone e)).foldl (fun g x => (g.discard x e).2) h1
    let h3 : Heap := { h2 with prec := update h2.prec e ∅ }
    let h4 := (it.ord [e, 1] (h3.cone e)).foldl (fun g x => (g.discard x e).2) h3
    (.ok (), { h4 with succ := update h4.succ e ∅ })

/-- Creation of the object and assignment of the fields in `__init__`, causetevent.py:54-60. -/
def alloc (l : Option Label) (past future : List EId) : Heap :=
  { next := h.next + 1
    label := update h.label h.next l
    prec := update h.prec h.next (past.foldl (fun acc e => acc ∪ h.presentOrPast e) ∅)
    succ := update h.succ h.next (future.foldl (fun acc e => acc ∪ h.presentOrFuture e) ∅)
    lprec := update h.lprec h.next none
    lsucc := update h.lsucc h.next none }

/-- `__init__`, causetevent.py:34-67 (without `_coordinates`, `_position`: see Embedding.lean).
`past` and `future` are iterables, given as the list of their elements in iteration order; the loops
over the sets `self._prec`, `self._succ` use the contexts `[self, 0]`, `[self, 1]`. -/
def newEvent (it : Iter) (l : Option Label) (past future : List EId) : EId × Heap :=
  let self := h.next
  let h1 := h.alloc l past future
  let h2 := (it.ord [self, 0] (h1.prec self)).foldl (fun g e => (g.addToFuture e self).2) h1
  let h3 := (it.ord [self, 1] (h2.succ self)).foldl (fun g e => (g.addToPast e self).2) h2
  (self, h3)

/-- `copy`, causetevent.py:424-439.  `fmt` is Python's `f'{self.Label}'` for labels that are not
integers; for the modelled label types it is the string itself. -/
def copy (e : EId) : EId × Heap :=
  let self := h.next
  let l : Option Label := match h.label e with
    | none => none
    | some (.int z) => some (.int z)
    | some (.str s) => some (.str s)
  let h1 := h.alloc l [] []
  let h2 : Heap := { h1 with prec := update h1.prec self (h.prec e)
                             succ := update h1.succ self (h.succ e) }
  let h3 : Heap := if h.hasBeenLinked e then
      { h2 with lprec := update h2.lprec self (h.lprec e)
                lsucc := update h2.lsucc self (h.lsucc e) }
    else h2
  (self, h3)

end Heap

/-! ## Link queries: they may call `link()` on first use, so they are state transformers -/

/-- `LinkPast`, causetevent.py:354-364 -/
def linkPast (e : EId) : StateM Heap (Finset EId) := fun h =>
  match h.lprec e with
  | some s => (s, h)
  | none => (h.pastLinks e, h.link e)

/-- `LinkFuture`, causetevent.py:366-376 -/
def linkFuture (e : EId) : StateM Heap (Finset EId) := fun h =>
  match h.lsucc e with
  | some s => (s, h)
  | none => (h.futureLinks e, h.link e)

/-- `LinkCone`, causetevent.py:378-388 -/
def linkCone (e : EId) : StateM Heap (Finset EId) := fun h =>
  match h.lprec e, h.lsucc e with
  | some s, some t => (s ∪ t, h)
  | _, _ => (h.pastLinks e ∪ h.futureLinks e, h.link e)

/-- `isPastLink`, causetevent.py:232-240 -/
def isPastLink (self other : EId) : StateM Heap Bool := fun h =>
  match h.lprec self with
  | some s => (decide (other ∈ s), h)
  | none => (decide (other ∈ h.pastLinks self), h.link self)

/-- `isFutureLink`, causetevent.py:242-250 -/
def isFutureLink (self other : EId) : StateM Heap Bool := fun h =>
  match h.lsucc self with
  | some s => (decide (other ∈ s), h)
  | none => (decide (other ∈ h.futureLinks self), h.link self)

/-- `isLinkedTo`, causetevent.py:258-262 (`or` short-circuits) -/
def isLinkedTo (self other : EId) : StateM Heap Bool := do
  if ← isPastLink self other then pure true else isFutureLink self other

/-- `LinkPastCard`, causetevent.py:390-399 -/
def linkPastCard (e : EId) : StateM Heap ℕ := do
  let s ← linkPast e
  pure s.card

/-- `LinkFutureCard`, causetevent.py:401-410 -/
def linkFutureCard (e : EId) : StateM Heap ℕ := do
  let s ← linkFuture e
  pure s.card

/-- `LinkConeCard`, causetevent.py:412-422: `len(self._lprec) & len(self._lsucc)` (bitwise and). -/
def linkConeCard (e : EId) : StateM Heap ℕ := fun h =>
  match h.lprec e, h.lsucc e with
  | some s, some t => (s.card &&& t.card, h)
  | _, _ => ((h.pastLinks e).card &&& (h.futureLinks e).card, h.link e)

/-- `LinkCountOf`, causetevent.py:271-273 -/
def linkCountOf (it : Iter) (s : Finset EId) : StateM Heap ℕ := do
  let counts ← (it.ord [0] s).mapM (fun e => do
    let lp ← linkPast e
    pure (lp ∩ s).card)
  pure counts.sum

/-- double loop in `Rank`, causetevent.py:457-463, over the pairs `(a_succ, b_prec)`; `rk` is the
recursive call. -/
def rankLoop (rk : EId → EId → StateM Heap (Except Err ℕ∞)) :
    List (EId × EId) → ℕ∞ → StateM Heap (Except Err ℕ∞)
  | [], r => pure (.ok r)
  | (x, y) :: t, r => do
    match ← rk x y with
    | .error e => pure (.error e)
    | .ok v =>
      let r' := min r (v + 2)
      if r' = 3 then pure (.ok 3) else rankLoop rk t r'

/-- `Rank`, causetevent.py:441-463.  Ranks are floats that are whole numbers or `math.inf`: modelled by
`ℕ∞`.  The first argument is the recursion depth available (Python's recursion limit); `ctx` identifies the
call for the iteration order. -/
def rank (it : Iter) : ℕ → List ℕ → EId → EId → StateM Heap (Except Err ℕ∞)
  | 0, _, _, _ => pure (.error .recursionError)
  | fuel + 1, ctx, a, b => do
    if !(← get).le a b then pure (.ok ⊤)
    else if a = b then pure (.ok 0)
    else if ← isFutureLink a b then pure (.ok 1)
    else
      let al ← linkFuture a
      let bl ← linkPast b
      if al ∩ bl ≠ ∅ then pure (.ok 2)
      else
        rankLoop (fun x y => rank it fuel (x :: y :: ctx) x y)
          ((it.ord (0 :: ctx) al).product (it.ord (1 :: ctx) bl)) ⊤

end Causets
