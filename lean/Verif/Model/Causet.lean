import Verif.Model.Event
import Mathlib.Data.List.Dedup
import Mathlib.Data.List.Sort
import Mathlib.Data.Finset.SymmDiff
import Mathlib.Data.Finset.Max
import Mathlib.Data.Finset.Prod

/-!
# `Causet` (causet.py): cones, construction, set operations, infinities, intervals, sorting

A `Causet` object has the single field `_events` (causet.py:20), so a causet is modelled by that
finite set.  Where the Python code loops over a set, the model folds over `it.ord ctx s` with `it`
an arbitrary iteration order.  Methods that read the link memory are in `Verif/Model/CausetLinks.lean`.
-/

namespace Causets

open Function (update)

namespace Heap

variable (it : Iter) (h : Heap)

/-! ## Cones of sets (causet.py:547-611) -/

/-- `PastOf`, causet.py:547-565 -/
def pastOf (s : Finset EId) (includePresent intersect : Bool) : Finset EId :=
  if includePresent && intersect then
    (it.ord [546] s).foldl (fun acc e => acc ∩ h.presentOrPast e) ∅
  else if intersect then
    (it.ord [546] s).foldl (fun acc e => acc ∩ h.past e) ∅
  else
    let r := (it.ord [546] s).foldl (fun acc e => acc ∪ h.past e) ∅
    if includePresent then r ∪ s else r

/-- `FutureOf`, causet.py:567-585 -/
def futureOf (s : Finset EId) (includePresent intersect : Bool) : Finset EId :=
  if includePresent && intersect then
    (it.ord [567] s).foldl (fun acc e => acc ∩ h.presentOrFuture e) ∅
  else if intersect then
    (it.ord [567] s).foldl (fun acc e => acc ∩ h.future e) ∅
  else
    let r := (it.ord [567] s).foldl (fun acc e => acc ∪ h.future e) ∅
    if includePresent then r ∪ s else r

/-- `ConeOf`, causet.py:587-605 -/
def coneOf (s : Finset EId) (includePresent intersect : Bool) : Finset EId :=
  if includePresent && intersect then
    (it.ord [588] s).foldl (fun acc e => acc ∩ h.cone e) ∅
  else if intersect then
    (it.ord [588] s).foldl (fun acc e => acc ∩ (h.past e ∪ h.future e)) ∅
  else
    let r := (it.ord [588] s).foldl (fun acc e => acc ∪ (h.past e ∪ h.future e)) ∅
    if includePresent then r ∪ s else r

/-- `SpacelikeTo`, causet.py:607-611 -/
def spacelikeTo (C s : Finset EId) : Finset EId := C \ h.coneOf it s true false

/-! ## `__init__` (causet.py:22-32) -/

/-- the `while True` loop of `__init__`, causet.py:27-31, with a bound on the number of rounds -/
def initLoop : ℕ → Finset EId → Except Err (Finset EId)
  | 0, _ => .error .outOfFuel
  | fuel + 1, s =>
    let s' := h.coneOf it s true false
    if s'.card = s.card then .ok s' else initLoop fuel s'

/-- `Causet.__init__`, causet.py:22-32.  The loop gets `h.next + 1` rounds, one more than there are events;
that this suffices is part of the theorems. -/
def causetInit (s : Finset EId) : Except Err (Finset EId) := h.initLoop it (h.next + 1) s

end Heap

/-! ## Constructors -/

/-- The argument `labelFormat` of the constructors (causet.py:42-53): `None`, `''`, or a format string,
the latter represented by the formatting function (format strings that make `str.format` raise are
not modelled). -/
inductive LabelFormat
  | default
  | empty
  | fmt (f : ℕ → String)

/-- causet.py:58-63 -/
def LabelFormat.label : LabelFormat → ℕ → Option Label
  | .default, u => some (.int u)
  | .empty, _ => none
  | .fmt f, u => some (.str (f u))

/-- Python's `P.index(u)` (0-based, ValueError if missing), used at causet.py:57, 66 -/
def pyIndex (P : List ℤ) (u : ℤ) : Except Err ℕ :=
  match P.idxOf? u with
  | some k => .ok k
  | none => .error .valueError

/-- indices `j` of the comprehension for `past`, causet.py:64-66: those `j < i` with `P.index(j + 1) + 1 < v`. (The
lookups cannot raise there: they succeeded in earlier rounds.) -/
def permPastIdx (P : List ℤ) (i v : ℕ) : List ℕ :=
  (List.range i).filter (fun (j : ℕ) => match pyIndex P ((j : ℤ) + 1) with
    | .ok w => decide (w + 1 < v)
    | .error _ => false)

/-- loop of `FromPermutation`, causet.py:55-67, rounds `i, …, i + n - 1`; `evs` is `eventList`.
The set comprehension for `past` is given as the list of its elements in the order of `j`. -/
def fromPermLoop (it : Iter) (fmt : LabelFormat) (P : List ℤ) :
    ℕ → ℕ → List EId → Heap → Except Err (List EId) × Heap
  | 0, _, evs, h => (.ok evs, h)
  | n + 1, i, evs, h =>
    match pyIndex P ((i : ℤ) + 1) with
    | .error x => (.error x, h)
    | .ok v =>
      let past := (permPastIdx P i (v + 1)).map (fun j => evs.getD j 0)
      let r := h.newEvent it (fmt.label (i + 1)) past []
      fromPermLoop it fmt P n (i + 1) (evs.set i r.1) r.2

/-- `FromPermutation`, causet.py:40-68.  `[CausetEvent()] * len(P)` creates one placeholder event. -/
def fromPermutation (it : Iter) (fmt : LabelFormat) (P : List ℤ) (h : Heap) :
    Except Err (Finset EId) × Heap :=
  let r := h.newEvent it none [] []
  match fromPermLoop it fmt P P.length 0 (List.replicate P.length r.1) r.2 with
  | (.error x, h') => (.error x, h')
  | (.ok evs, h') => (h'.causetInit it evs.toFinset, h')

/-- `NewChain`, causet.py:70-78: `range(1, n + 1)` is empty for n ≤ 0 -/
def newChain (it : Iter) (fmt : LabelFormat) (n : ℤ) (h : Heap) :
    Except Err (Finset EId) × Heap :=
  fromPermutation it fmt ((List.range n.toNat).map (fun (i : ℕ) => (i : ℤ) + 1)) h

/-- `NewAntichain`, causet.py:80-87: `range(n, 0, -1)` -/
def newAntichain (it : Iter) (fmt : LabelFormat) (n : ℤ) (h : Heap) :
    Except Err (Finset EId) × Heap :=
  fromPermutation it fmt ((List.range n.toNat).map (fun (i : ℕ) => n - (i : ℤ))) h

/-- Creating events one after the other from a list of (label, past): the pattern of the list
comprehensions at causet.py:95-96, 128-129, 135-142, 182-183. -/
def newEvents (it : Iter) : List (Option Label × List EId) → Heap → List EId × Heap
  | [], h => ([], h)
  | (l, p) :: t, h =>
    let r := h.newEvent it l p []
    let rs := newEvents it t r.2
    (r.1 :: rs.1, rs.2)

/-- one round of the loop in `NewFence`, causet.py:132-142 (`loop[l - 1]` for l = 0 is the last
element: Python's negative index) -/
def fenceRound (it : Iter) (length : ℕ) (closed : Bool) (k : ℕ) (loop : List EId) (h : Heap) :
    List EId × Heap :=
  let offset := k * length + 1
  newEvents it ((List.range length).map (fun (l : ℕ) =>
    (some (.int ((l : ℤ) + offset)),
      if l = 0 then
        if closed then [loop.getD (loop.length - 1) 0, loop.getD 0 0] else [loop.getD 0 0]
      else [loop.getD (l - 1) 0, loop.getD l 0]))) h

/-- loop of `NewFence`, causet.py:131-144, rounds `k, …, k + n - 1` -/
def fenceLoop (it : Iter) (length : ℕ) (closed : Bool) :
    ℕ → ℕ → List EId → Finset EId → Heap → Finset EId × Heap
  | 0, _, _, s, h => (s, h)
  | n + 1, k, loop, s, h =>
    let r := fenceRound it length closed k loop h
    fenceLoop it length closed n (k + 1) r.1 (s ∪ r.1.toFinset) r.2

/-- `NewFence`, causet.py:114-145 -/
def newFence (it : Iter) (length height : ℤ) (closed : Bool) (h : Heap) :
    Except Err (Finset EId) × Heap :=
  if length < 1 ∨ height < 0 then (h.causetInit it ∅, h)
  else if length = 1 then newChain it .default (height + 1) h
  else
    let n := length.toNat
    let r := newEvents it ((List.range n).map (fun (l : ℕ) => (some (.int ((l : ℤ) + 1)), []))) h
    let q := fenceLoop it n closed height.toNat 1 r.1 r.1.toFinset r.2
    (q.2.causetInit it q.1, q.2)

/-- `NewCrown`, causet.py:147-153 -/
def newCrown (it : Iter) (length : ℤ) (h : Heap) : Except Err (Finset EId) × Heap :=
  newFence it length 1 true h

/-- `itertools.combinations(xs, k)` (lexicographic in the positions), used at causet.py:99, 103-104 -/
def combinations {α : Type} : ℕ → List α → List (List α)
  | 0, _ => [[]]
  | _ + 1, [] => []
  | k + 1, x :: xs => (combinations k xs).map (x :: ·) ++ combinations (k + 1) xs

/-- `'-'.join(e.Label for e in evs)`, causet.py:100-101, 105, 110-111: the labels of the vertices are strings
(events without string label do not occur here: Python would raise TypeError) -/
def joinLabels (h : Heap) (evs : List EId) : String :=
  "-".intercalate (evs.map (fun e => match h.label e with
    | some (.str s) => s
    | _ => ""))

/-- body of the inner loop of `NewSimplex`, causet.py:100-107 -/
def simplexFace (it : Iter) (k : ℕ) (face : List EId) (s : Finset EId) (h : Heap) :
    Finset EId × Heap :=
  let faceLabel := joinLabels h face
  let facePast := (combinations (k - 1) face).foldl (fun acc pf =>
    acc ∪ s.filter (fun e => h.label e = some (.str (joinLabels h pf)))) ∅
  let r := h.newEvent it (some (.str faceLabel)) (it.ord [108] facePast) []
  (insert r.1 s, r.2)

/-- inner loop of `NewSimplex`, causet.py:99-107 -/
def simplexFaces (it : Iter) (k : ℕ) : List (List EId) → Finset EId → Heap → Finset EId × Heap
  | [], s, h => (s, h)
  | f :: fs, s, h =>
    let r := simplexFace it k f s h
    simplexFaces it k fs r.1 r.2

/-- outer loop of `NewSimplex`, causet.py:98-107, over the list of face numbers -/
def simplexLoop (it : Iter) (vertices : List EId) :
    List ℕ → Finset EId → Heap → Finset EId × Heap
  | [], s, h => (s, h)
  | k :: ks, s, h =>
    let r := simplexFaces it k (combinations k vertices) s h
    simplexLoop it vertices ks r.1 r.2

/-- `NewSimplex`, causet.py:89-112 (`range(1, d + 2)` has max(d + 1, 0) elements, `range(2, d + 1)` has
max(d - 1, 0)) -/
def newSimplex (it : Iter) (d : ℤ) (includeCentralFace : Bool) (h : Heap) :
    Except Err (Finset EId) × Heap :=
  let n := (d + 1).toNat
  let v := newEvents it ((List.range n).map (fun i => (some (.str (toString (i + 1))), []))) h
  let q := simplexLoop it v.1 ((List.range (d - 1).toNat).map (· + 2)) v.1.toFinset v.2
  if includeCentralFace && decide (d > 0) then
    let r := q.2.newEvent it (some (.str (joinLabels q.2 v.1))) (it.ord [110] q.1) []
    (r.2.causetInit it (insert r.1 q.1), r.2)
  else (q.2.causetInit it q.1, q.2)

/-- A logical matrix (`numpy` array of dtype bool): shape and entries (causet.py:177-178, 187-188). -/
structure BMat where
  rows : ℕ
  cols : ℕ
  at' : ℕ → ℕ → Bool

/-- `C.T`, causet.py:205 -/
def BMat.transpose (C : BMat) : BMat := ⟨C.cols, C.rows, fun i j => C.at' j i⟩

/-- first loop of `FromPastMatrix`, causet.py:185-192; rounds `i, …, i + n - 1` -/
def pastMatrixLoop1 (C : BMat) (evs : List EId) : ℕ → ℕ → Heap → Except Err Unit × Heap
  | 0, _, h => (.ok (), h)
  | n + 1, i, h =>
    let e := evs.getD i 0
    let past := (((List.range C.cols).filter (fun j => C.at' i j)).map (fun j => evs.getD j 0)).toFinset
    let future :=
      (((List.range C.rows).filter (fun j => C.at' j i)).map (fun j => evs.getD j 0)).toFinset
    if past ∩ future ≠ ∅ ∨ e ∈ past ∨ e ∈ future then (.error .valueError, h)
    else pastMatrixLoop1 C evs n (i + 1)
      { h with prec := update h.prec e past
               succ := update h.succ e future }

/-- second loop of `FromPastMatrix`, causet.py:194-197 -/
def pastMatrixLoop2 (it : Iter) : List EId → Heap → Heap
  | [], h => h
  | e :: es, h =>
    let h1 : Heap := { h with prec := update h.prec e (h.pastOf it (h.prec e) true false) }
    pastMatrixLoop2 it es
      { h1 with succ := update h1.succ e (h1.futureOf it (h1.succ e) true false) }

/-- `FromPastMatrix`, causet.py:167-198 -/
def fromPastMatrix (it : Iter) (C : BMat) (h : Heap) : Except Err (Finset EId) × Heap :=
  if C.cols < C.rows then (.error .valueError, h)
  else
    let r := newEvents it ((List.range C.cols).map (fun (i : ℕ) => (some (.int ((i : ℤ) + 1)), []))) h
    match pastMatrixLoop1 C r.1 C.rows 0 r.2 with
    | (.error x, h1) => (.error x, h1)
    | (.ok _, h1) =>
      let h2 := pastMatrixLoop2 it r.1 h1
      (h2.causetInit it r.1.toFinset, h2)

/-- `FromFutureMatrix`, causet.py:200-205 -/
def fromFutureMatrix (it : Iter) (C : BMat) (h : Heap) : Except Err (Finset EId) × Heap :=
  fromPastMatrix it C.transpose h

/-- inner loop of `merge`, causet.py:234-236 -/
def mergeInner (p : EId) : List EId → Heap → Heap
  | [], h => h
  | f :: fs, h => mergeInner p fs ((h.addToFuture p f).2.addToPast f p).2

/-- outer loop of `merge`, causet.py:233-236 -/
def mergeLoop (it : Iter) (futureSet : Finset EId) : List EId → Heap → Heap
  | [], h => h
  | p :: ps, h => mergeLoop it futureSet ps (mergeInner p (it.ord [p, 238] futureSet) h)

/-- `merge`, causet.py:223-237 -/
def merge (it : Iter) (pastSet futureSet : Finset EId) (disjoint : Bool) (h : Heap) :
    Except Err (Finset EId) × Heap :=
  let h1 := if disjoint then h else mergeLoop it futureSet (it.ord [237] pastSet) h
  (h1.causetInit it (pastSet ∪ futureSet), h1)

/-! ## Changing the event set (causet.py:239-296) -/

/-- `for e in self._events: e.unlink()`, causet.py:246-247, 258-259 -/
def unlinkAll : List EId → Heap → Except Err Unit × Heap
  | [], h => (.ok (), h)
  | e :: es, h =>
    match h.unlink e with
    | (.error x, h1) => (.error x, h1)
    | (.ok _, h1) => unlinkAll es h1

/-- `add`, causet.py:239-249: returns the new `_events` (updated even if `unlink` raises), the outcome and
the heap.  `hasattr(self, '__diagram_coords')` is always False (nothing in /repo sets it). -/
def causetAdd (it : Iter) (C s : Finset EId) (unlink : Bool) (h : Heap) :
    Finset EId × Except Err Unit × Heap :=
  let C' := C ∪ s
  (C', if unlink then unlinkAll (it.ord [250] C') h else (.ok (), h))

/-- `discard`, causet.py:251-261 -/
def causetDiscard (it : Iter) (C s : Finset EId) (unlink : Bool) (h : Heap) :
    Finset EId × Except Err Unit × Heap :=
  let C' := C \ s
  (C', if unlink then unlinkAll (it.ord [262] C') h else (.ok (), h))

/-- `len` / `Card`, causet.py:263-275 -/
def causetCard (C : Finset EId) : ℕ := C.card

/-- first loop of `Causet.link`, causet.py:282-283 -/
def linkClear : List EId → Heap → Heap
  | [], h => h
  | e :: es, h => linkClear es { h with lsucc := update h.lsucc e (some ∅) }

/-- innermost loop of `Causet.link`, causet.py:287-288 (`a._lsucc` may not exist: AttributeError) -/
def linkAddSucc (b : EId) : List EId → Heap → Except Err Unit × Heap
  | [], h => (.ok (), h)
  | a :: as, h =>
    match h.lsucc a with
    | none => (.error .attributeError, h)
    | some t => linkAddSucc b as { h with lsucc := update h.lsucc a (some (insert b t)) }

/-- second loop of `Causet.link`, causet.py:285-288 -/
def linkCompute (it : Iter) : List EId → Heap → Except Err Unit × Heap
  | [], h => (.ok (), h)
  | b :: bs, h =>
    let s := h.pastLinks b
    let h1 : Heap := { h with lprec := update h.lprec b (some s) }
    match linkAddSucc b (it.ord [b, 291] s) h1 with
    | (.error x, h2) => (.error x, h2)
    | (.ok _, h2) => linkCompute it bs h2

/-- `Causet.link`, causet.py:277-288 -/
def causetLink (it : Iter) (C : Finset EId) (h : Heap) : Except Err Unit × Heap :=
  linkCompute it (it.ord [289] C) (linkClear (it.ord [286] C) h)

/-- loop of `Causet.unlink`, causet.py:294-296 -/
def unlinkLinked : List EId → Heap → Except Err Unit × Heap
  | [], h => (.ok (), h)
  | e :: es, h =>
    if h.hasBeenLinked e then
      match h.unlink e with
      | (.error x, h1) => (.error x, h1)
      | (.ok _, h1) => unlinkLinked es h1
    else unlinkLinked es h

/-- `Causet.unlink`, causet.py:290-296 -/
def causetUnlink (it : Iter) (C : Finset EId) (h : Heap) : Except Err Unit × Heap :=
  unlinkLinked (it.ord [298] C) h

/-! ## Searching (causet.py:364-386) -/

/-- `find`, causet.py:364-372 -/
def find (it : Iter) (C : Finset EId) (l : Option Label) (h : Heap) : Except Err EId :=
  match (it.ord [367] C).find? (fun e => decide (h.label e = l)) with
  | some e => .ok e
  | none => .error .valueError

/-- `findAny`, causet.py:374-380 (the generator, run to its end) -/
def findAny (it : Iter) (C : Finset EId) (ls : List (Option Label)) (h : Heap) : List EId :=
  (it.ord [376] C).filter (fun e => decide (h.label e ∈ ls))

/-- `findAll`, causet.py:382-386 -/
def findAll (C : Finset EId) (ls : List (Option Label)) (h : Heap) : Finset EId :=
  C.filter (fun e => h.label e ∈ ls)

/-! ## Set operators (causet.py:388-426) -/

/-- `__contains__`, causet.py:388-389 -/
def causetContains (C : Finset EId) (e : EId) : Bool := decide (e ∈ C)
/-- `__sub__`, causet.py:391-392 -/
def opSub (C o : Finset EId) : Finset EId := C \ o
/-- `__rsub__`, causet.py:394-395: the value of `o - C` -/
def opRsub (C o : Finset EId) : Finset EId := C \ o
/-- `__or__`, causet.py:397-398 -/
def opOr (C o : Finset EId) : Finset EId := C ∪ o
/-- `__ror__`, causet.py:400-401: the value of `o | C` -/
def opRor (C o : Finset EId) : Finset EId := C ∪ o
/-- `__and__`, causet.py:403-404 -/
def opAnd (C o : Finset EId) : Finset EId := C ∩ o
/-- `__rand__`, causet.py:406-407 -/
def opRand (C o : Finset EId) : Finset EId := C ∩ o
/-- `__xor__`, causet.py:409-410 -/
def opXor (C o : Finset EId) : Finset EId := symmDiff C o
/-- `__rxor__`, causet.py:412-413 -/
def opRxor (C o : Finset EId) : Finset EId := symmDiff C o
/-- `difference`, causet.py:415-416 -/
def setDifference (C o : Finset EId) : Finset EId := C \ o
/-- `intersection`, causet.py:418-419 -/
def setIntersection (C o : Finset EId) : Finset EId := C ∩ o
/-- `symmetric_difference`, causet.py:421-423 -/
def setSymmetricDifference (C o : Finset EId) : Finset EId := symmDiff C o
/-- `union`, causet.py:425-426 -/
def setUnion (C o : Finset EId) : Finset EId := C ∪ o

namespace Heap

variable (it : Iter) (h : Heap)

/-! ## Chains and antichains (causet.py:428-484) -/

/-- `isChain`, causet.py:428-444; `none` = no argument -/
def isChain (C : Finset EId) : Option (Finset EId) → Bool
  | none => (it.ord [433] C).all (fun e => decide (h.coneCard e = C.card))
  | some s => (it.ord [439] s).all (fun e => decide ((h.cone e ∩ s).card = s.card))

/-- `isAntichain`, causet.py:470-484 -/
def isAntichain (C : Finset EId) : Option (Finset EId) → Bool
  | none => (it.ord [474] C).all (fun e => decide (h.coneCard e = 1))
  | some s => (it.ord [479] s).all (fun e => decide ((h.cone e ∩ s).card = 1))

/-! ## Infinities (causet.py:486-545) -/

/-- `PastInf`, causet.py:486-491 -/
def pastInf (C : Finset EId) : Finset EId := C.filter (fun e => h.pastCard e = 0)
/-- `FutureInf`, causet.py:493-499 -/
def futureInf (C : Finset EId) : Finset EId := C.filter (fun e => h.futureCard e = 0)
/-- `PastInfCard`, causet.py:501-506 -/
def pastInfCard (C : Finset EId) : ℕ := ((it.ord [504] C).filter (fun e => h.pastCard e = 0)).length
/-- `FutureInfCard`, causet.py:508-513 -/
def futureInfCard (C : Finset EId) : ℕ :=
  ((it.ord [511] C).filter (fun e => h.futureCard e = 0)).length
/-- `PastInfOf`, causet.py:515-521 -/
def pastInfOf (s : Finset EId) : Finset EId := s.filter (fun e => h.past e ∩ s = ∅)
/-- `FutureInfOf`, causet.py:523-529 -/
def futureInfOf (s : Finset EId) : Finset EId := s.filter (fun e => h.future e ∩ s = ∅)
/-- `PastInfCardOf`, causet.py:531-537 -/
def pastInfCardOf (s : Finset EId) : ℕ :=
  ((it.ord [535] s).filter (fun e => h.past e ∩ s = ∅)).length
/-- `FutureInfCardOf`, causet.py:539-545 -/
def futureInfCardOf (s : Finset EId) : ℕ :=
  ((it.ord [543] s).filter (fun e => h.future e ∩ s = ∅)).length

/-! ## Intervals (causet.py:613-645) -/

/-- `Interval`, causet.py:613-629 -/
def interval (a b : EId) (includeBoundary : Bool) : Finset EId :=
  if !h.le a b then ∅
  else if a = b then {a}
  else if includeBoundary then h.presentOrFuture a ∩ h.presentOrPast b
  else h.future a ∩ h.past b

/-- `IntervalCard`, causet.py:631-645 -/
def intervalCard (a b : EId) (includeBoundary : Bool) : ℕ :=
  if !h.le a b then 0
  else if a = b then 1
  else (h.future a ∩ h.past b).card + 2 * (if includeBoundary then 1 else 0)

/-! ## `CentralAntichain` (causet.py:694-716) -/

/-- `abs(e.PastCard - e.FutureCard - diff)`, causet.py:707-708 -/
def imbalance (diff : ℤ) (e : EId) : ℕ := ((h.pastCard e : ℤ) - h.futureCard e - diff).natAbs

/-- inner loop, causet.py:713-715 -/
def centralInner (diff : ℤ) (size : ℕ) : List EId → Finset EId → Finset EId
  | [], s => s
  | e :: es, s =>
    centralInner diff size es
      (if h.imbalance diff e = size ∧ h.cone e ∩ s = ∅ then insert e s else s)

/-- `diff`, causet.py:703-706 -/
def centralDiff : Option EId → ℤ
  | none => 0
  | some x => (h.pastCard x : ℤ) - h.futureCard x

/-- `CentralAntichain`, causet.py:694-716: `np.unique` returns the sorted distinct values; both loops
enumerate the unchanged set in the same order -/
def centralAntichain (C : Finset EId) (e : Option EId) : Finset EId :=
  let diff := h.centralDiff e
  let evs := it.ord [715] C
  let sizes := ((evs.map (h.imbalance diff)).dedup).insertionSort (· ≤ ·)
  sizes.foldl (fun s size => h.centralInner diff size evs s) ∅

/-! ## Layers (causet.py:718-783) -/

/-- layer number used for past events, causet.py:736-741, 773-776: minus (largest interval − 1), 0 if the
set is empty.  (`max` over a non-empty set of cardinalities is `Finset.sup`.) -/
def layerDown (s : Finset EId) (a : EId) : ℤ :=
  let setB := h.future a ∩ s
  if setB ≠ ∅ then -(((setB.sup (fun b => h.intervalCard a b true) : ℕ) : ℤ) - 1) else 0

/-- layer number used for future events, causet.py:747-752, 779-782 -/
def layerUp (s : Finset EId) (b : EId) : ℤ :=
  let setA := h.past b ∩ s
  if setA ≠ ∅ then ((setA.sup (fun a => h.intervalCard a b true) : ℕ) : ℤ) - 1 else 0

/-- `Layers`, causet.py:718-755 -/
def layers (s : Finset EId) (first : ℤ) (last : Option ℤ) : Finset EId :=
  let last := last.getD first
  if s.card = 0 ∨ first > last then ∅
  else
    let s1 := if first ≤ 0 then
        (h.pastOf it s true false).filter
          (fun a => first ≤ h.layerDown s a ∧ h.layerDown s a ≤ min 0 last)
      else ∅
    if last > 0 then
      s1 ∪ (h.futureOf it s true false).filter
        (fun b => max first 0 ≤ h.layerUp s b ∧ h.layerUp s b ≤ last)
    else s1

/-- `LayerNumbers`, causet.py:757-783 -/
def layerNumbers (l : List EId) (reverse : Bool) : List ℤ :=
  if l.toFinset.card = 0 then []
  else l.map (fun e => if reverse then h.layerDown l.toFinset e else h.layerUp l.toFinset e)

/-- the `while layer` loop of `layered`, causet.py:1182-1184, with a bound on the number of rounds -/
def layeredLoop (s : Finset EId) (step : ℤ) : ℕ → Finset EId → Except Err (List (Finset EId))
  | 0, layer => if layer = ∅ then .ok [] else .error .outOfFuel
  | fuel + 1, layer =>
    if layer = ∅ then .ok []
    else match layeredLoop s step fuel (h.layers it layer step none ∩ s) with
      | .ok ls => .ok (layer :: ls)
      | .error x => .error x

/-- `layered`, causet.py:1166-1185; `none` = no argument.  The loop gets `s.card` rounds. -/
def layered (C : Finset EId) (eventSet : Option (Finset EId)) (reverse : Bool) :
    Except Err (List (Finset EId)) :=
  let s := eventSet.getD C
  if reverse then h.layeredLoop it s (-1) s.card (h.futureInfOf s)
  else h.layeredLoop it s 1 s.card (h.pastInfOf s)

/-! ## `SmallestIntervalCard` (causet.py:931-991) -/

/-- `min(f(e) for e in s)` for non-empty `s`, causet.py:977-991 -/
def minOver {α : Type} (s : Finset α) (f : α → ℕ) : ℕ :=
  if hs : s.Nonempty then s.inf' hs f else 0

/-- `len(X if intersecting is None else X & intersecting)`, causet.py:965-969, 977-983 (`PastCard` and `FutureCard`
are the lengths of `Past`, `Future`) -/
def cardIn (X : Finset EId) (intersecting : Option (Finset EId)) : ℕ :=
  match intersecting with
  | none => X.card
  | some t => (X ∩ t).card

/-- the value `IntervalCard(a, b)` or `len(Interval(a, b) & intersecting)`, causet.py:962-963, 985-991 -/
def intervalCardIn (a b : EId) (intersecting : Option (Finset EId)) : ℕ :=
  match intersecting with
  | none => h.intervalCard a b true
  | some t => (h.interval a b true ∩ t).card

/-- second part of `SmallestIntervalCard`, causet.py:970-991 -/
def smallestCommon (a b : EId) (searching : Finset EId) (intersecting : Option (Finset EId)) : ℕ :=
  let p := h.past a ∩ h.past b ∩ searching
  let f := h.future a ∩ h.future b ∩ searching
  if p = ∅ ∧ f = ∅ then 0
  else if p = ∅ then minOver f (fun e => cardIn (h.past e) intersecting)
  else if f = ∅ then minOver p (fun e => cardIn (h.future e) intersecting)
  else minOver (p ×ˢ f) (fun x => h.intervalCardIn x.1 x.2 intersecting)

/-- `SmallestIntervalCard`, causet.py:931-991 -/
def smallestIntervalCard (C : Finset EId) (a b : EId) (searching intersecting : Option (Finset EId)) :
    ℕ :=
  let (a, b) := if h.gt a b then (b, a) else (a, b)
  if h.le a b then
    match searching with
    | none => h.intervalCardIn a b intersecting
    | some t =>
      if a ∈ t ∧ b ∈ t then h.intervalCardIn a b intersecting
      else if a ∈ t then cardIn (h.future a) intersecting
      else if b ∈ t then cardIn (h.past b) intersecting
      else h.smallestCommon a b t intersecting
  else h.smallestCommon a b (searching.getD C) intersecting

/-! ## `disjoint` (causet.py:1093-1127) -/

/-- inner `while` loop of `disjoint`, causet.py:1114-1117 -/
def disjointInner (remaining : Finset EId) : ℕ → Finset EId → ℕ → Except Err (Finset EId)
  | 0, _, _ => .error .outOfFuel
  | fuel + 1, sub, preLen =>
    if preLen < sub.card then
      disjointInner remaining fuel (h.coneOf it sub true false ∩ remaining) sub.card
    else .ok sub

/-- outer `while` loop of `disjoint`, causet.py:1110-1119 -/
def disjointLoop : ℕ → Finset EId → Except Err (List (Finset EId))
  | 0, remaining => if remaining = ∅ then .ok [] else .error .outOfFuel
  | fuel + 1, remaining =>
    match it.ord [1105] remaining with
    | [] => .ok []
    | x :: _ =>
      match h.disjointInner it remaining (remaining.card + 2) {x} 0 with
      | .error e => .error e
      | .ok sub =>
        match disjointLoop fuel (remaining \ sub) with
        | .ok ls => .ok (sub :: ls)
        | .error e => .error e

/-- `disjoint`, causet.py:1093-1120; the outer loop gets as many rounds as there are events, each inner
loop two more than there are remaining events -/
def disjointSets (C : Finset EId) (eventSet : Option (Finset EId)) :
    Except Err (List (Finset EId)) :=
  let s := eventSet.getD C
  h.disjointLoop it s.card s

/-- `isDisjoint`, causet.py:1122-1127 -/
def isDisjoint (C : Finset EId) (eventSet : Option (Finset EId)) : Except Err Bool :=
  match h.disjointSets it C eventSet with
  | .ok ls => .ok (decide (ls.length > 1))
  | .error e => .error e

end Heap

/-! ## Sorting (causet.py:1129-1164) -/

/-- `np.argsort` on a list of labels (causet.py:1139-1140): returns a permutation of the indices, sorted if all
labels are integers; how ties are ordered is not specified (numpy's default sort is not stable).
It may raise for labels that cannot be compared (e.g. several `None`). -/
structure ArgSort where
  run : List (Option Label) → Except Err (List ℕ)
  perm : ∀ ls idx, run ls = .ok idx → idx.Perm (List.range ls.length)
  ok_int : ∀ zs : List ℤ, ∃ idx, run (zs.map (fun z => some (.int z))) = .ok idx
  sorted_int : ∀ (zs : List ℤ) idx, run (zs.map (fun z => some (.int z))) = .ok idx →
    (idx.map (fun i => zs.getD i 0)).Pairwise (· ≤ ·)

namespace Heap

variable (it : Iter) (as : ArgSort) (h : Heap)

/-- `sortedByLabels`, causet.py:1129-1145 -/
def sortedByLabels (C : Finset EId) (eventSet : Option (Finset EId)) (reverse : Bool) :
    Except Err (List EId) :=
  let s := eventSet.getD C
  let unsorted := it.ord [1133] s
  match as.run (unsorted.map h.label) with
  | .error x => .error x
  | .ok idx =>
    let sorted := idx.map (fun i => unsorted.getD i 0)
    .ok (if reverse then sorted.reverse else sorted)

/-- body of the inner loop of `sortedByCausality`, causet.py:1160-1161 -/
def swapStep (i : ℕ) (l : List EId) (j : ℕ) : List EId :=
  if h.lt (l.getD i 0) (l.getD j 0) then (l.set i (l.getD j 0)).set j (l.getD i 0) else l

/-- the two loops of `sortedByCausality`, causet.py:1158-1161 -/
def exchangeSort (l : List EId) : List EId :=
  (List.range l.length).foldl (fun l i => (List.range i).foldl (h.swapStep i) l) l

/-- `sortedByCausality`, causet.py:1147-1164 -/
def sortedByCausality (C : Finset EId) (eventSet : Option (Finset EId)) (reverse : Bool) :
    Except Err (List EId) :=
  match h.sortedByLabels it as C (some (eventSet.getD C)) true with
  | .error x => .error x
  | .ok l =>
    let r := h.exchangeSort l
    .ok (if reverse then r.reverse else r)

/-- Entry `M[i, j]` of a matrix given by its rows (causet.py:318-323); `False` outside. -/
def matEntry (M : List (List Bool)) (i j : ℕ) : Bool := (M.getD i []).getD j false

/-- numpy's transpose `M.T` of a square matrix, causet.py:338, 362 -/
def matT (M : List (List Bool)) : List (List Bool) :=
  (List.range M.length).map (fun i => (List.range M.length).map (fun j => matEntry M j i))

/-- `PastMatrix` for a given list of events, causet.py:318-323 -/
def pastMatrixOf (l : List EId) : List (List Bool) :=
  l.map (fun a => l.map (fun b => h.gt a b))

/-- `PastMatrix`, causet.py:308-323 (`dtype` only changes the representation of the entries) -/
def pastMatrix (C : Finset EId) (labeled : Option (List EId)) : Except Err (List (List Bool)) :=
  match labeled with
  | some l => .ok (h.pastMatrixOf l)
  | none => match h.sortedByCausality it as C none false with
    | .error x => .error x
    | .ok l => .ok (h.pastMatrixOf l)

/-- `FutureMatrix`, causet.py:333-338 -/
def futureMatrix (C : Finset EId) (labeled : Option (List EId)) : Except Err (List (List Bool)) :=
  match h.pastMatrix it as C labeled with
  | .error x => .error x
  | .ok M => .ok (matT M)

end Heap

end Causets
