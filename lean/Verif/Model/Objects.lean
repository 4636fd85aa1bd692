import Verif.Model.Causet

/-!
# Set objects and references (causetevent.py, causet.py)

The other files model the attributes `_prec`, `_succ`, `_lprec`, `_lsucc` of events and `_events` of causets by the *values* of the sets.  In Python the attributes are references to set
objects: `e.Past` returns the object itself (causetevent.py:281), assignments make an attribute refer to another object, operations in place (`add`, `-=`, `|=`, `update`, ...) change an
object that somebody else may refer to, and a `for` loop over a set object raises RuntimeError if the size of the object changes meanwhile.  Here the functions are modelled with
references.  Read-only uses of a set by a comprehension or an operator (`&`, `|`, `-`) are still modelled by values, and temporary sets that no one else can refer to are no objects.
-/

namespace Causets

open Function (update)

/-- the four attributes of an event that are sets -/
inductive Field
  | prec
  | succ
  | lprec
  | lsucc
  deriving DecidableEq, Repr

/-- The event objects and the set objects of the program.  `val i` are the elements of the set object number `i`, `nextSet` is the first number that is not used, `attr e f` is the set object
that the attribute refers to (`none`: no such attribute). -/
structure Objs where
  next : ℕ
  label : EId → Option Label
  nextSet : ℕ
  val : ℕ → Finset EId
  attr : EId → Field → Option ℕ

namespace Objs

/-- the state before any event or set has been created -/
def empty : Objs := ⟨0, fun _ => none, 0, fun _ => ∅, fun _ _ => none⟩

variable (it : Iter) (o : Objs)

/-- the value of an attribute (∅ if it does not exist: then the code raises AttributeError; existing events have `_prec` and `_succ`) -/
def get (e : EId) (f : Field) : Finset EId := match o.attr e f with
  | none => ∅
  | some i => o.val i

/-- The state as seen without references: the state of `Model/Base.lean`. -/
def abs : Heap :=
  { next := o.next
    label := o.label
    prec := fun e => o.get e .prec
    succ := fun e => o.get e .succ
    lprec := fun e => (o.attr e .lprec).map o.val
    lsucc := fun e => (o.attr e .lsucc).map o.val }

/-- a new set object -/
def newSet (s : Finset EId) : ℕ × Objs := (o.nextSet, { o with nextSet := o.nextSet + 1, val := update o.val o.nextSet s })

/-- an operation in place on a set object -/
def change (i : ℕ) (g : Finset EId → Finset EId) : Objs := { o with val := update o.val i (g (o.val i)) }

/-- an operation in place on the object that an attribute refers to, e.g. `self._prec.add(other)` -/
def mutate (e : EId) (f : Field) (g : Finset EId → Finset EId) : Objs := match o.attr e f with
  | none => o
  | some i => o.change i g

/-- `e.f = set(...)`: the attribute refers to a new object -/
def assign (e : EId) (f : Field) (s : Finset EId) : Objs :=
  let r := o.newSet s
  { r.2 with attr := update r.2.attr e (update (r.2.attr e) f (some r.1)) }

/-- `delattr(e, f)` of an attribute that exists -/
def delete (e : EId) (f : Field) : Objs := { o with attr := update o.attr e (update (o.attr e) f none) }

/-- `for e in <set object i>: body(e)`: before each round and at the end the iterator compares the size of the object with the size at the beginning, which was `n` -/
def forSet (body : EId → Objs → Except Err Unit × Objs) (i n : ℕ) : List EId → Objs → Except Err Unit × Objs
  | [], o => if (o.val i).card = n then (.ok (), o) else (.error .runtimeError, o)
  | e :: es, o =>
    if (o.val i).card = n then
      match body e o with
      | (.error x, o1) => (.error x, o1)
      | (.ok _, o1) => forSet body i n es o1
    else (.error .runtimeError, o)

/-- the same with the initial size and order; `ctx` identifies the loop -/
def loop (ctx : List ℕ) (body : EId → Objs → Except Err Unit × Objs) (i : ℕ) : Except Err Unit × Objs :=
  forSet body i (o.val i).card (it.ord ctx (o.val i)) o

/-! ## Events (causetevent.py) -/

/-- `hasBeenLinked`, causetevent.py:69-74 -/
def hasBeenLinked (e : EId) : Bool := (o.attr e .lprec).isSome && (o.attr e .lsucc).isSome

/-- `isLink`, causetevent.py:220-230 -/
def isLink (a b : EId) : Bool := decide (o.get a .succ ∩ o.get b .prec = ∅)

/-- `_addToPast`, causetevent.py:76-89 -/
def addToPast (self other : EId) : Objs :=
  if other ∈ o.get self .prec then o
  else
    let o1 := if o.hasBeenLinked self && o.isLink other self then
      let o' := o.mutate self .lprec (fun s => s \ o.get other .prec)
      o'.mutate self .lprec (fun s => insert other s) else o
    o1.mutate self .prec (fun s => insert other s)

/-- `_addToFuture`, causetevent.py:91-104 -/
def addToFuture (self other : EId) : Objs :=
  if other ∈ o.get self .succ then o
  else
    let o1 := if o.hasBeenLinked self && o.isLink self other then
      let o' := o.mutate self .lsucc (fun s => s \ o.get other .succ)
      o'.mutate self .lsucc (fun s => insert other s) else o
    o1.mutate self .succ (fun s => insert other s)

/-- `_discard`, causetevent.py:106-126 -/
def discard (self other : EId) : Objs :=
  if other ∈ o.get self .prec then
    let o1 := if o.hasBeenLinked self && decide (other ∈ o.get self .lprec) then
      let o' := o.mutate self .lprec (fun s => s ∪ (o.get other .prec).filter (fun e => o.isLink e self))
      o'.mutate self .lprec (fun s => s.erase other) else o
    o1.mutate self .prec (fun s => s.erase other)
  else if other ∈ o.get self .succ then
    let o1 := if o.hasBeenLinked self && decide (other ∈ o.get self .lsucc) then
      let o' := o.mutate self .lsucc (fun s => s ∪ (o.get other .succ).filter (fun e => o.isLink self e))
      o'.mutate self .lsucc (fun s => s.erase other) else o
    o1.mutate self .succ (fun s => s.erase other)
  else o

/-- `link`, causetevent.py:199-211 -/
def link (e : EId) : Objs :=
  let o1 := o.assign e .lprec ((o.get e .prec).filter (fun x => o.isLink x e))
  o1.assign e .lsucc ((o1.get e .succ).filter (fun x => o1.isLink e x))

/-- `unlink`, causetevent.py:213-218 -/
def unlink (e : EId) : Except Err Unit × Objs :=
  if (o.attr e .lprec).isSome then
    let o1 := o.delete e .lprec
    if (o1.attr e .lsucc).isSome then (.ok (), o1.delete e .lsucc) else (.error .attributeError, o1)
  else (.error .attributeError, o)

/-- `Cone`, causetevent.py:291-297, as a value -/
def coneVal (e : EId) : Finset EId := o.get e .prec ∪ {e} ∪ o.get e .succ

/-- `disjoin`, causetevent.py:128-139 (the sets of the loops are temporary) -/
def disjoin (e : EId) : Except Err Unit × Objs :=
  match o.unlink e with
  | (.error x, o1) => (.error x, o1)
  | (.ok _, o1) =>
    let o2 := (it.ord [e, 0] (o1.coneVal e)).foldl (fun g x => g.discard x e) o1
    let o3 := o2.assign e .prec ∅
    let o4 := (it.ord [e, 1] (o3.coneVal e)).foldl (fun g x => g.discard x e) o3
    (.ok (), o4.assign e .succ ∅)

/-- the creation of an object without any attribute but `Label`, causetevent.py:54 -/
def newObject (l : Option Label) : EId × Objs :=
  (o.next, { o with next := o.next + 1, label := update o.label o.next l, attr := update o.attr o.next (fun _ => none) })

/-- `for e in kwargs.get(...): self.f.update(...)`, causetevent.py:56-57, 59-60, for a set object (`none`: the argument is not given) -/
def gather (self : EId) (f : Field) : Option ℕ → Except Err Unit × Objs
  | none => (.ok (), o)
  | some i => o.loop it [] (fun e g => (.ok (), g.mutate self f (fun s => s ∪ (g.get e f ∪ {e})))) i

/-- `for e in self.f: ...` for an attribute that exists -/
def loopAttr (ctx : List ℕ) (body : EId → Objs → Except Err Unit × Objs) (e : EId) (f : Field) : Except Err Unit × Objs := match o.attr e f with
  | none => (.error .attributeError, o)
  | some i => o.loop it ctx body i

/-- `__init__`, causetevent.py:34-67 (without `_coordinates`, `_position`), for arguments `past` and `future` that are set objects -/
def newEvent (l : Option Label) (past future : Option ℕ) : Except Err EId × Objs :=
  let r := o.newObject l
  let self := r.1
  match (r.2.assign self .prec ∅).gather it self .prec past with
  | (.error x, o1) => (.error x, o1)
  | (.ok _, o1) =>
    match (o1.assign self .succ ∅).gather it self .succ future with
    | (.error x, o2) => (.error x, o2)
    | (.ok _, o2) =>
      match o2.loopAttr it [self, 0] (fun e g => (.ok (), g.addToFuture e self)) self .prec with
      | (.error x, o3) => (.error x, o3)
      | (.ok _, o3) =>
        match o3.loopAttr it [self, 1] (fun e g => (.ok (), g.addToPast e self)) self .succ with
        | (.error x, o4) => (.error x, o4)
        | (.ok _, o4) => (.ok self, o4)

/-- `copy`, causetevent.py:424-439 (for a label that is an integer, a string or None) -/
def copy (e : EId) : EId × Objs :=
  let r := o.newObject (o.label e)
  let o1 := (r.2.assign r.1 .prec ∅).assign r.1 .succ ∅
  let o2 := o1.assign r.1 .prec (o1.get e .prec)
  let o3 := o2.assign r.1 .succ (o2.get e .succ)
  let o4 := if o3.hasBeenLinked e then
    let o' := o3.assign r.1 .lprec (o3.get e .lprec)
    o'.assign r.1 .lsucc (o'.get e .lsucc) else o3
  (r.1, o4)

/-- `LinkPast`, causetevent.py:354-364: the object of the attribute -/
def linkPast (e : EId) : Option ℕ × Objs :=
  if (o.attr e .lprec).isSome then (o.attr e .lprec, o) else ((o.link e).attr e .lprec, o.link e)

/-- `LinkFuture`, causetevent.py:366-376 -/
def linkFuture (e : EId) : Option ℕ × Objs :=
  if (o.attr e .lsucc).isSome then (o.attr e .lsucc, o) else ((o.link e).attr e .lsucc, o.link e)

/-! ## Causets (causet.py).  A causet is the set object of its attribute `_events`. -/

/-- the loops of `PastOf`, `FutureOf` and `ConeOf` (causet.py:553-564, 573-584, 593-604), where `newEventSet` is the object `k`, which is changed in place -/
def gatherInto (ctx : List ℕ) (cone coneP : Objs → EId → Finset EId) (k i : ℕ) (includePresent intersect : Bool) : Except Err Unit × Objs :=
  if includePresent && intersect then o.loop it ctx (fun e g => (.ok (), g.change k (fun s => s ∩ coneP g e))) i
  else if intersect then o.loop it ctx (fun e g => (.ok (), g.change k (fun s => s ∩ cone g e))) i
  else match o.loop it ctx (fun e g => (.ok (), g.change k (fun s => s ∪ cone g e))) i with
    | (.error x, o1) => (.error x, o1)
    | (.ok _, o1) => (.ok (), if includePresent then o1.change k (fun s => s ∪ o1.val i) else o1)

/-- `PastOf`, `FutureOf` and `ConeOf`: `newEventSet = set()`, causet.py:552, 572, 592, the loops, `return newEventSet` -/
def gatherOf (ctx : List ℕ) (cone coneP : Objs → EId → Finset EId) (i : ℕ) (includePresent intersect : Bool) : Except Err ℕ × Objs :=
  match (o.newSet ∅).2.gatherInto it ctx cone coneP (o.newSet ∅).1 i includePresent intersect with
  | (.error x, o2) => (.error x, o2)
  | (.ok _, o2) => (.ok (o.newSet ∅).1, o2)

/-- `PastOf`, causet.py:547-565 -/
def pastOf (i : ℕ) (includePresent intersect : Bool) : Except Err ℕ × Objs :=
  o.gatherOf it [546] (fun g e => g.get e .prec) (fun g e => g.get e .prec ∪ {e}) i includePresent intersect

/-- `FutureOf`, causet.py:567-585 -/
def futureOf (i : ℕ) (includePresent intersect : Bool) : Except Err ℕ × Objs :=
  o.gatherOf it [567] (fun g e => g.get e .succ) (fun g e => g.get e .succ ∪ {e}) i includePresent intersect

/-- `ConeOf`, causet.py:587-605 -/
def coneOf (i : ℕ) (includePresent intersect : Bool) : Except Err ℕ × Objs :=
  o.gatherOf it [588] (fun g e => g.get e .prec ∪ g.get e .succ) (fun g e => g.coneVal e) i includePresent intersect

/-- the loop of `Causet.__init__`, causet.py:27-31: `eventSet` refers to another object in each round -/
def initLoop : ℕ → ℕ → Objs → Except Err ℕ × Objs
  | 0, _, o => (.error .outOfFuel, o)
  | fuel + 1, i, o => match o.coneOf it i true false with
    | (.error x, o1) => (.error x, o1)
    | (.ok j, o1) => if (o1.val j).card = (o.val i).card then (.ok j, o1) else initLoop fuel j o1

/-- `Causet.__init__`, causet.py:22-32 -/
def causetInit (i : ℕ) : Except Err ℕ × Objs := initLoop it (o.next + 1) i o

/-- the loops of `merge`, causet.py:233-236 -/
def mergeLoop (i j : ℕ) : Except Err Unit × Objs :=
  o.loop it [237] (fun p g => g.loop it [p, 238] (fun f g' => (.ok (), (g'.addToFuture p f).addToPast f p)) j) i

/-- `merge`, causet.py:223-237, for set objects -/
def merge (i j : ℕ) (disjoint : Bool) : Except Err ℕ × Objs :=
  match (if disjoint then (.ok (), o) else o.mergeLoop it i j) with
  | (.error x, o1) => (.error x, o1)
  | (.ok _, o1) =>
    let r := o1.newSet (o1.val i ∪ o1.val j)
    r.2.causetInit it r.1

/-- `Causet.add`, causet.py:239-249, for the causet with the set object `c` and for an argument that is a set or a causet with the object `i` (elements of `c` that are added again do not
change its size, so it does not matter that Python iterates over a causet) -/
def causetAdd (c i : ℕ) (unlink : Bool) : Except Err Unit × Objs :=
  let o1 := o.change c (fun s => s ∪ o.val i)
  if unlink then o1.loop it [250] (fun e g => g.unlink e) c else (.ok (), o1)

/-- `self._events.difference_update(eventSet)`, causet.py:256, for the set object `c` and the argument `i`.  If the argument is a set, then its elements are removed (also if it is the
object `c` itself, which is then cleared).  If it is a `Causet` (with `_events` = `i`), then Python iterates over it, i.e. over the object `i` (`__iter__`, causet.py:34-35), and removes one
element after the other from `c`. -/
def differenceUpdate (c i : ℕ) (isCauset : Bool) : Except Err Unit × Objs :=
  if isCauset then o.loop it [256] (fun e g => (.ok (), g.change c (fun s => s.erase e))) i
  else (.ok (), o.change c (fun s => s \ o.val i))

/-- `Causet.discard`, causet.py:251-261; `isCauset`: whether the argument is a `Causet` or a set -/
def causetDiscard (c i : ℕ) (isCauset unlink : Bool) : Except Err Unit × Objs :=
  match o.differenceUpdate it c i isCauset with
  | (.error x, o1) => (.error x, o1)
  | (.ok _, o1) => if unlink then o1.loop it [262] (fun e g => g.unlink e) c else (.ok (), o1)

/-- `a._lsucc.add(b)`, causet.py:288 -/
def addLsucc (b a : EId) : Except Err Unit × Objs :=
  if (o.attr a .lsucc).isSome then (.ok (), o.mutate a .lsucc (fun s => insert b s)) else (.error .attributeError, o)

/-- `Causet.link`, causet.py:277-288 -/
def causetLink (c : ℕ) : Except Err Unit × Objs :=
  match o.loop it [286] (fun e g => (.ok (), g.assign e .lsucc ∅)) c with
  | (.error x, o1) => (.error x, o1)
  | (.ok _, o1) => o1.loop it [289] (fun b g =>
      let g1 := g.assign b .lprec ((g.get b .prec).filter (fun a => g.isLink a b))
      g1.loopAttr it [b, 291] (fun a g' => g'.addLsucc b a) b .lprec) c

/-- `Causet.unlink`, causet.py:290-296 -/
def causetUnlink (c : ℕ) : Except Err Unit × Objs :=
  o.loop it [298] (fun e g => if g.hasBeenLinked e then g.unlink e else (.ok (), g)) c

/-! ## Calls of a program -/

/-- Calls of the library, with set objects as arguments, and what a program may do with a set object itself. -/
inductive Call
  | newEvent (l : Option Label) (past future : Option ℕ)
  | copy (e : EId)
  | disjoin (e : EId)
  | link (e : EId)
  | unlink (e : EId)
  | past (e : EId)
  | future (e : EId)
  | cone (e : EId)
  | presentOrPast (e : EId)
  | presentOrFuture (e : EId)
  | linkPast (e : EId)
  | linkFuture (e : EId)
  | pastOf (i : ℕ) (includePresent intersect : Bool)
  | futureOf (i : ℕ) (includePresent intersect : Bool)
  | coneOf (i : ℕ) (includePresent intersect : Bool)
  | newCauset (i : ℕ)
  | merge (i j : ℕ) (disjoint : Bool)
  | add (c i : ℕ) (unlink : Bool)
  | discard (c i : ℕ) (isCauset unlink : Bool)
  | causetLink (c : ℕ)
  | causetUnlink (c : ℕ)
  /-- the program creates a set `{...}` -/
  | newSet (s : Finset EId)
  /-- the program changes a set that it has a reference to, e.g. `s.add(e)`, `s.clear()` -/
  | change (i : ℕ) (s : Finset EId)

/-- the outcome without a returned set -/
def noSet {α : Type} (r : Except Err α × Objs) : Except Err (Option ℕ) × Objs := (match r.1 with
  | .error x => .error x
  | .ok _ => .ok none, r.2)

/-- the outcome with a returned set -/
def aSet (r : Except Err ℕ × Objs) : Except Err (Option ℕ) × Objs := (match r.1 with
  | .error x => .error x
  | .ok i => .ok (some i), r.2)

/-- a property that returns a temporary set: the program gets a new object, causetevent.py:291-313 -/
def fresh (s : Finset EId) : Except Err (Option ℕ) × Objs := (.ok (some (o.newSet s).1), (o.newSet s).2)

/-- a call: the outcome with the set object that is returned (if any; for `newCauset` and `merge`: the attribute `_events` of the causet), and the state afterwards.
`Past` and `Future` return the object of the attribute, causetevent.py:275-289. -/
def run : Call → Except Err (Option ℕ) × Objs
  | .newEvent l p f => noSet (o.newEvent it l p f)
  | .copy e => (.ok none, (o.copy e).2)
  | .disjoin e => noSet (o.disjoin it e)
  | .link e => (.ok none, o.link e)
  | .unlink e => noSet (o.unlink e)
  | .past e => (.ok (o.attr e .prec), o)
  | .future e => (.ok (o.attr e .succ), o)
  | .cone e => o.fresh (o.coneVal e)
  | .presentOrPast e => o.fresh (o.get e .prec ∪ {e})
  | .presentOrFuture e => o.fresh (o.get e .succ ∪ {e})
  | .linkPast e => (.ok (o.linkPast e).1, (o.linkPast e).2)
  | .linkFuture e => (.ok (o.linkFuture e).1, (o.linkFuture e).2)
  | .pastOf i p q => aSet (o.pastOf it i p q)
  | .futureOf i p q => aSet (o.futureOf it i p q)
  | .coneOf i p q => aSet (o.coneOf it i p q)
  | .newCauset i => aSet (o.causetInit it i)
  | .merge i j d => aSet (o.merge it i j d)
  | .add c i u => noSet (o.causetAdd it c i u)
  | .discard c i k u => noSet (o.causetDiscard it c i k u)
  | .causetLink c => noSet (o.causetLink it c)
  | .causetUnlink c => noSet (o.causetUnlink it c)
  | .newSet s => o.fresh s
  | .change i s => (.ok none, o.change i (fun _ => s))

end Objs
end Causets
