import Verif.Model.Causet

/-!
# `Causet` (causet.py): methods that read the link memory

They may compute missing links, so they are state transformers on the heap.
-/

namespace Causets

/-- `LinkCount`, causet.py:298-306 -/
def linkCount (it : Iter) (C : Finset EId) : Option (Finset EId) → StateM Heap ℕ
  | none => do
    let counts ← (it.ord [308] C).mapM linkPastCard
    pure counts.sum
  | some s => do
    let counts ← (it.ord [310] s).mapM (fun e => do
      let lp ← linkPast e
      pure (lp ∩ s).card)
    pure counts.sum

/-- `LinkPastMatrix` for a given list, causet.py:350-355 -/
def linkPastMatrixOf (l : List EId) : StateM Heap (List (List Bool)) :=
  l.mapM (fun a => l.mapM (fun b => isPastLink a b))

/-- `LinkPastMatrix`, causet.py:340-355 -/
def linkPastMatrix (it : Iter) (as : ArgSort) (C : Finset EId) (labelling : Option (List EId)) :
    StateM Heap (Except Err (List (List Bool))) := do
  match labelling with
  | some l => return .ok (← linkPastMatrixOf l)
  | none =>
    match (← get).sortedByCausality it as C none false with
    | .error x => return .error x
    | .ok l => return .ok (← linkPastMatrixOf l)

/-- `LinkFutureMatrix`, causet.py:357-362 -/
def linkFutureMatrix (it : Iter) (as : ArgSort) (C : Finset EId) (labelling : Option (List EId)) :
    StateM Heap (Except Err (List (List Bool))) := do
  match ← linkPastMatrix it as C labelling with
  | .error x => return .error x
  | .ok M => return .ok (Heap.matT M)

/-- loop of `isPath`, causet.py:460-467 (`n` is `extremal`) -/
def isPathLoop (s : Finset EId) : List EId → ℕ → StateM Heap Bool
  | [], _ => pure true
  | e :: es, n => do
    let c ← linkCone e
    let k := (c ∩ s).card
    if k < 1 ∨ k > 2 then pure false
    else if k = 1 then
      if n + 1 > 2 then pure false else isPathLoop s es (n + 1)
    else isPathLoop s es n

/-- `isPath`, causet.py:446-468 -/
def isPath (it : Iter) (C : Finset EId) : Option (Finset EId) → StateM Heap Bool
  | none => do
    if C.card = 0 then pure false else pure ((← get).isChain it C none)
  | some s =>
    if s.card ≤ 1 then pure (decide (s.card = 1))
    else isPathLoop s (it.ord [458] s) 0

/-- `PerimetralEvents`, causet.py:647-657 -/
def perimetralEvents (a b : EId) : StateM Heap (Finset EId) := do
  if !(← get).lt a b then pure ∅
  else
    let x ← linkFuture a
    let y ← linkPast b
    pure (x ∩ y)

/-- `PerimetralEventCount`, causet.py:659-668 -/
def perimetralEventCount (a b : EId) : StateM Heap ℕ := do
  if !(← get).lt a b then pure 0
  else
    let x ← linkFuture a
    let y ← linkPast b
    pure (x ∩ y).card

/-- `InternalEvents`, causet.py:670-680 -/
def internalEvents (a b : EId) : StateM Heap (Finset EId) := do
  if !(← get).lt a b then pure ∅
  else
    let open' := (← get).future a ∩ (← get).past b
    let p ← perimetralEvents a b
    pure (open' \ p)

/-- `InternalEventCount`, causet.py:682-692 (Python integers: ℤ) -/
def internalEventCount (a b : EId) : StateM Heap ℤ := do
  if !(← get).lt a b then pure 0
  else
    let n := ((← get).future a ∩ (← get).past b).card
    let p ← perimetralEventCount a b
    pure ((n : ℤ) - p)

/-! ## Ranks (causet.py:785-845) -/

/-- `int(a.Rank(b))`, causet.py:804, 814, 839, 844: `int(math.inf)` raises OverflowError.  The recursion of `Rank` gets as many levels as
there are events. -/
def intRank (it : Iter) (ctx : List ℕ) (a b : EId) : StateM Heap (Except Err ℕ) := do
  match ← rank it ((← get).next + 1) ctx a b with
  | .error x => pure (.error x)
  | .ok r => if r = ⊤ then pure (.error .overflowError) else pure (.ok r.toNat)

/-- `max(int(Rank(..)) for .. in ..)`, causet.py:804, 814, 839, 844, over a list of pairs; the result for the empty list is the start value
(the code only takes the maximum of non-empty sets of numbers ≥ 0, starting value 0). -/
def maxRank (it : Iter) (ctx : List ℕ) : List (EId × EId) → ℕ → StateM Heap (Except Err ℕ)
  | [], m => pure (.ok m)
  | (a, b) :: t, m => do
    match ← intRank it (a :: b :: ctx) a b with
    | .error x => pure (.error x)
    | .ok r => maxRank it ctx t (max m r)

/-- rank number of a past event `a` of `s`, causet.py:802-806, 837-839 -/
def rankDown (it : Iter) (s : Finset EId) (a : EId) : StateM Heap (Except Err ℤ) := do
  let setB := (← get).future a ∩ s
  if setB ≠ ∅ then
    match ← maxRank it [812] ((it.ord [a, 812] setB).map (fun b => (a, b))) 0 with
    | .error x => pure (.error x)
    | .ok m => pure (.ok (-(m : ℤ)))
  else pure (.ok 0)

/-- rank number of a future event `b` of `s`, causet.py:812-816, 842-844 -/
def rankUp (it : Iter) (s : Finset EId) (b : EId) : StateM Heap (Except Err ℤ) := do
  let setA := (← get).past b ∩ s
  if setA ≠ ∅ then
    match ← maxRank it [822] ((it.ord [b, 822] setA).map (fun a => (a, b))) 0 with
    | .error x => pure (.error x)
    | .ok m => pure (.ok (m : ℤ))
  else pure (.ok 0)

/-- the filtering loops of `Ranks`, causet.py:801-808, 811-818: add the events whose number is in range -/
def ranksFilter (num : EId → StateM Heap (Except Err ℤ)) (lo hi : ℤ) :
    List EId → Finset EId → StateM Heap (Except Err (Finset EId))
  | [], acc => pure (.ok acc)
  | e :: es, acc => do
    match ← num e with
    | .error x => pure (.error x)
    | .ok n => ranksFilter num lo hi es (if lo ≤ n ∧ n ≤ hi then insert e acc else acc)

/-- first part of `Ranks`, causet.py:798-808 -/
def ranksPast (it : Iter) (s : Finset EId) (first last : ℤ) : StateM Heap (Except Err (Finset EId)) := do
  if first ≤ 0 then
    ranksFilter (rankDown it s) first (min 0 last) (it.ord [809] ((← get).pastOf it s true false)) ∅
  else pure (.ok ∅)

/-- `Ranks`, causet.py:785-819 -/
def ranks (it : Iter) (s : Finset EId) (first : ℤ) (last : Option ℤ) :
    StateM Heap (Except Err (Finset EId)) := do
  let last := last.getD first
  if s.card = 0 ∨ first > last then pure (.ok ∅)
  else
    match ← ranksPast it s first last with
    | .error x => pure (.error x)
    | .ok acc =>
      if last > 0 then
        ranksFilter (rankUp it s) (max first 0) last
          (it.ord [819] ((← get).futureOf it s true false)) acc
      else pure (.ok acc)

/-- the loops of `RankNumbers`, causet.py:835-844 -/
def rankNumbersLoop (num : EId → StateM Heap (Except Err ℤ)) :
    List EId → StateM Heap (Except Err (List ℤ))
  | [] => pure (.ok [])
  | e :: es => do
    match ← num e with
    | .error x => pure (.error x)
    | .ok n =>
      match ← rankNumbersLoop num es with
      | .error x => pure (.error x)
      | .ok ns => pure (.ok (n :: ns))

/-- `RankNumbers`, causet.py:821-845 -/
def rankNumbers (it : Iter) (l : List EId) (reverse : Bool) : StateM Heap (Except Err (List ℤ)) :=
  if l.toFinset.card = 0 then pure (.ok [])
  else rankNumbersLoop (if reverse then rankDown it l.toFinset else rankUp it l.toFinset) l

/-! ## Paths (causet.py:847-929) -/

/-- The argument `length` of `Paths` by its Python type (causet.py:865-875). -/
inductive LenArg
  | str (s : String)
  | int (z : ℤ)
  | list (l : List ℤ)
  | other

/-- what `Paths_find` (causet.py:889-914) yields, with the values of the nonlocal `min_len`, `max_len` afterwards -/
abbrev PathsOut := List (List EId) × ℤ × ℤ

/-- `for e in internal: for p in Paths_find(path_a + [e], e, l): yield p`, causet.py:912-914; `f` is the
recursive call -/
def pathsLoop (f : EId → ℤ → ℤ → StateM Heap (Except Err PathsOut)) :
    List EId → ℤ → ℤ → StateM Heap (Except Err PathsOut)
  | [], mn, mx => pure (.ok ([], mn, mx))
  | e :: es, mn, mx => do
    match ← f e mn mx with
    | .error x => pure (.error x)
    | .ok (ps, mn1, mx1) =>
      match ← pathsLoop f es mn1 mx1 with
      | .error x => pure (.error x)
      | .ok (qs, mn2, mx2) => pure (.ok (ps ++ qs, mn2, mx2))

/-- `Paths_find`, causet.py:889-914, run to its end (the generator is lazy in Python; the model collects
everything it yields).  First argument: available recursion depth. -/
def pathsFind (it : Iter) (b : EId) (bLinked : Finset EId) (findMin findMax : Bool) :
    ℕ → List EId → EId → ℤ → ℤ → ℤ → StateM Heap (Except Err PathsOut)
  | 0, _, _, _, _, _ => pure (.error .recursionError)
  | fuel + 1, path, a, l, mn, mx => do
    let lf ← linkFuture a
    let aLinked := lf ∩ (← get).past b
    let perimetral := aLinked ∩ bLinked
    let internal := aLinked \ perimetral
    let here := decide (mn ≤ l) && decide (perimetral.card > 0) &&
      (!findMax || decide (internal.card = 0))
    let ys := if here then (it.ord (0 :: path) perimetral).map (fun e => path ++ [e, b]) else []
    if here && findMin then
      pure (.ok (ys, mn, if l ≤ mx ∨ mx = -1 then l else mx))
    else
      let mn' := if findMax then max mn l else mn
      if l = mx then pure (.ok (ys, mn', mx))
      else
        match ← pathsLoop
            (fun e mn mx => pathsFind it b bLinked findMin findMax fuel (path ++ [e]) e (l + 1) mn mx)
            (it.ord (1 :: path) internal) mn' mx with
        | .error x => pure (.error x)
        | .ok (qs, mn2, mx2) => pure (.ok (ys ++ qs, mn2, mx2))

/-- body of `Paths` after the bounds have been determined, causet.py:877-929 -/
def pathsBody (it : Iter) (a b : EId) (findMin findMax : Bool) (mn mx : ℤ) :
    StateM Heap (Except Err (List (List EId))) := do
  if !(← get).le a b then pure (.ok [])
  else if a = b then
    pure (.ok (if mn ≤ 1 ∧ (1 ≤ mx ∨ mx = -1) then [[a]] else []))
  else if ← isFutureLink a b then
    pure (.ok (if mn ≤ 2 ∧ (2 ≤ mx ∨ mx = -1) then [[a, b]] else []))
  else if 3 ≤ mx ∨ mx = -1 then
    let lp ← linkPast b
    let bLinked := (← get).future a ∩ lp
    match ← pathsFind it b bLinked findMin findMax ((← get).next + 1) [a] a 3 mn mx with
    | .error x => pure (.error x)
    | .ok (ps, mn', mx') =>
      if findMin || findMax then
        if findMin then pure (.ok (ps.filter (fun p => ((p.length : ℕ) : ℤ) = mx')))
        else pure (.ok (ps.filter (fun p => ((p.length : ℕ) : ℤ) = mn')))
      else pure (.ok ps)
  else pure (.ok [])

/-- `Paths`, causet.py:847-929 (`length[0]` of an empty list raises IndexError) -/
def paths (it : Iter) (a b : EId) : LenArg → StateM Heap (Except Err (List (List EId)))
  | .str s => pathsBody it a b (s == "min") (s == "max" || s == "timegeo") 0 (-1)
  | .int z => pathsBody it a b false false z z
  | .list [] => pure (.error .indexError)
  | .list (x :: xs) => pathsBody it a b false false x ((x :: xs).getLastD x)
  | .other => pure (.error .valueError)

end Causets
