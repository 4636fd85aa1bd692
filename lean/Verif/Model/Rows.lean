import Verif.Model.EmbInit

/-!
# Coordinate rows of any length

`CausetEvent._coordinates` is a list of any length (the empty list by default, causetevent.py:61) and a list of coordinate rows is not checked by
`EmbeddedCauset` (embeddedcauset.py:113-116).  Here the coordinates are Python lists, and reading an entry beyond the end or subtracting arrays of
different shapes raises as in NumPy.  Numbers are real numbers, as in Model/Spacetimes.lean; the points on the horizon of a black hole are as there.
-/

namespace Causets

/-- the coordinates of an event, `np.array(a.Coordinates)`, embeddedcauset.py:226-227: a one-dimensional array -/
abbrev Row := List ℝ

/-- `x[i]`, e.g. spacetimes.py:297: IndexError beyond the end -/
def rowAt (x : Row) (i : ℕ) : Except Err ℝ := match x[i]? with
  | some v => .ok v
  | none => .error .indexError

/-- `y - x` for one-dimensional arrays, e.g. in spacetimes.py:308: entry by entry if the shapes are equal; an array with a single entry is repeated
(NumPy's broadcasting); ValueError for other shapes -/
def rowSub (y x : Row) : Except Err Row :=
  if y.length = x.length then .ok (List.zipWith (· - ·) y x)
  else if y.length = 1 then .ok (x.map (fun b => y.headD 0 - b))
  else if x.length = 1 then .ok (y.map (fun a => a - x.headD 0))
  else .error .valueError

/-- `sum(np.square(v))`, e.g. in spacetimes.py:308 -/
def rowSq (v : Row) : ℝ := (v.map (· ^ 2)).sum

/-- `isCausal` of the base class, spacetimes.py:90-93 -/
noncomputable def causalityBaseRow (x y : Row) : Except Err (Bool × Bool) := do
  let ty ← rowAt y 0
  let tx ← rowAt x 0
  let tDelta := ty - tx
  return (test (tDelta ≥ 0), test (tDelta < 0))

/-- `isCausal_flat2D`, spacetimes.py:295-302 -/
noncomputable def causalityFlat2DRow (eps : ℝ) (x y : Row) : Except Err (Bool × Bool) := do
  let ty ← rowAt y 0
  let tx ← rowAt x 0
  let tDelta := ty - tx
  let ry ← rowAt y 1
  let rx ← rowAt x 1
  let isCausal := test (|tDelta| ≥ |ry - rx| - eps)
  return (test (tDelta ≥ 0) && isCausal, test (tDelta < 0) && isCausal)

/-- `isCausal_flat`, spacetimes.py:304-311: the number of coordinates is not looked at -/
noncomputable def causalityFlatRow (eps : ℝ) (x y : Row) : Except Err (Bool × Bool) := do
  let ty ← rowAt y 0
  let tx ← rowAt x 0
  let tDelta := ty - tx
  let d ← rowSub y.tail x.tail
  let isCausal := test (tDelta ^ 2 ≥ rowSq d - eps)
  return (test (tDelta ≥ 0) && isCausal, test (tDelta < 0) && isCausal)

/-- `isCausal_flat2Dperiodic`, spacetimes.py:315-325 -/
noncomputable def causalityFlat2DPeriodicRow (eps : ℝ) (period : ℕ → ℝ) (x y : Row) : Except Err (Bool × Bool) := do
  let ty ← rowAt y 0
  let tx ← rowAt x 0
  let tDelta := ty - tx
  let ry ← rowAt y 1
  let rx ← rowAt x 1
  let rDelta := periodicDelta (period 0) (ry - rx)
  let isCausal := test (|tDelta| ≥ |rDelta| - eps)
  return (test (tDelta ≥ 0) && isCausal, test (tDelta < 0) && isCausal)

/-- the loop in `isCausal_flatperiodic`, spacetimes.py:331-336, over the remaining indices -/
noncomputable def periodicSumRow (period : ℕ → ℝ) (x y : Row) : List ℕ → ℝ → Except Err ℝ
  | [], s => .ok s
  | i :: is, s => do
    let ry ← rowAt y i
    let rx ← rowAt x i
    periodicSumRow period x y is (s + (periodicDelta (period (i - 1)) (ry - rx)) ^ 2)

/-- `isCausal_flatperiodic`, spacetimes.py:327-341 -/
noncomputable def causalityFlatPeriodicRow (eps : ℝ) (dim : ℕ) (period : ℕ → ℝ) (x y : Row) : Except Err (Bool × Bool) := do
  let ty ← rowAt y 0
  let tx ← rowAt x 0
  let tDelta := ty - tx
  let r2Delta ← periodicSumRow period x y (List.range' 1 (dim - 1)) 0
  let isCausal := test (tDelta ^ 2 ≥ r2Delta - eps)
  return (test (tDelta ≥ 0) && isCausal, test (tDelta < 0) && isCausal)

/-- `FlatSpacetime.Causality`, spacetimes.py:289-341 -/
noncomputable def FlatSpacetime.causalityRows (eps : ℝ) (M : FlatSpacetime) : Row → Row → Except Err (Bool × Bool) :=
  if M.dim = 1 then causalityBaseRow
  else if !M.isPeriodic then
    if M.dim = 2 then causalityFlat2DRow eps else causalityFlatRow eps
  else
    let period : ℕ → ℝ := fun i => (M.period.getD []).getD i 0
    if M.dim = 2 then causalityFlat2DPeriodicRow eps period else causalityFlatPeriodicRow eps M.dim period

/-- `isCausal_dS`, spacetimes.py:546-564: a point beyond the horizon is answered before its time is read -/
noncomputable def causalityDSRow (eps alpha : ℝ) (x y : Row) : Except Err (Bool × Bool) :=
  let r2x := rowSq x.tail
  let r2y := rowSq y.tail
  if test (r2x ≥ alpha ^ 2) || test (r2y ≥ alpha ^ 2) then .ok (false, false)
  else do
    let ampX := Real.sqrt (alpha ^ 2 - r2x)
    let ampY := Real.sqrt (alpha ^ 2 - r2y)
    let tx ← rowAt x 0
    let x0x := ampX * Real.sinh (tx / alpha)
    let x1x := ampX * Real.cosh (tx / alpha)
    let ty ← rowAt y 0
    let x0y := ampY * Real.sinh (ty / alpha)
    let x1y := ampY * Real.cosh (ty / alpha)
    let x0Delta := x0y - x0x
    let d ← rowSub y.tail x.tail
    let isCausal := test (x0Delta ^ 2 ≥ rowSq d + (x1y - x1x) ^ 2 - eps)
    return (test (x0Delta ≥ 0) && isCausal, test (x0Delta < 0) && isCausal)

/-- `isCausal_AdS`, spacetimes.py:641-654 -/
noncomputable def causalityAdSRow (eps alpha : ℝ) (x y : Row) : Except Err (Bool × Bool) := do
  let ampX := Real.sqrt (alpha ^ 2 + rowSq x.tail)
  let ampY := Real.sqrt (alpha ^ 2 + rowSq y.tail)
  let tx ← rowAt x 0
  let x0x := ampX * Real.sin (tx / alpha)
  let x1x := ampX * Real.cos (tx / alpha)
  let ty ← rowAt y 0
  let x0y := ampY * Real.sin (ty / alpha)
  let x1y := ampY * Real.cos (ty / alpha)
  let x0Delta := x0y - x0x
  let d ← rowSub y.tail x.tail
  let isCausal := test (x0Delta ^ 2 + (x1y - x1x) ^ 2 ≥ rowSq d - eps)
  return (test (x0Delta ≥ 0) && isCausal, test (x0Delta < 0) && isCausal)

/-- `isCausal_BH2D`, spacetimes.py:755-788: the first line reads `x[1]` and `y[1]`, after that everything that is read (`x[0]`, `y[0]`) exists, and
the rest of the function is `causalityBH` -/
noncomputable def causalityBHRow (metric : BHMetric) (rS : ℝ) (x y : Row) : Except Err (Bool × Bool) := do
  let _ ← rowAt x 1
  let _ ← rowAt y 1
  return causalityBH metric rS (rowPoint x) (rowPoint y)

/-- `Causality()` of a spacetime object as a function of coordinate lists, spacetimes.py:80-94, 289-341, 543-564, 638-654, 748-790 -/
noncomputable def SpacetimeObj.causalityRows (eps : ℝ) : SpacetimeObj → Row → Row → Except Err (Bool × Bool)
  | .base => causalityBaseRow
  | .flat M => M.causalityRows eps
  | .deSitter _ a => causalityDSRow eps a
  | .antiDeSitter _ a => causalityAdSRow eps a
  | .blackHole r m => causalityBHRow m r

section
variable {α : Type} (c : α → α → Except Err (Bool × Bool))

/-- inner loop of `relate`, embeddedcauset.py:224-233, with a causality function that can raise -/
def relateRowE (crd : EId → Option α) (a : EId) : List EId → Heap → Except Err Unit × Heap
  | [], h => (.ok (), h)
  | b :: bs, h =>
    match crd a, crd b with
    | some x, some y => match c x y with
      | .error e => (.error e, h)
      | .ok r => relateRowE crd a bs (h.relatePair r a b)
    | _, _ => (.error .attributeError, h)

/-- double loop of `relate`, embeddedcauset.py:223-233 -/
def relateRowsE (crd : EId → Option α) : List EId → Heap → Except Err Unit × Heap
  | [], h => (.ok (), h)
  | a :: as, h =>
    match relateRowE c crd a as h with
    | (.error x, h1) => (.error x, h1)
    | (.ok _, h1) => relateRowsE crd as h1

/-- `relate`, embeddedcauset.py:211-237.  (`Causality()` itself, line 216-217, does not raise for the spacetimes that can be constructed.) -/
def relateE (it : Iter) (C : Finset EId) (link : Bool) (w : World α) : Except Err Unit × World α :=
  match relateRowsE c w.crd (it.ord [221] C) (Heap.relateClear (it.ord [218] C) w.heap) with
  | (.error x, h1) => (.error x, { w with heap := h1 })
  | (.ok _, h1) =>
    let r := if link then causetLink it C h1 else causetUnlink it C h1
    (r.1, { w with heap := r.2 })

/-- `create`, embeddedcauset.py:189-209 -/
def createE (it : Iter) (C : Finset EId) (coords : List α) (fmt : Option (ℕ → String)) (doRelate : Bool) (w : World α) :
    Finset EId × Finset EId × Except Err Unit × World α :=
  let r := createEvents it fmt (C.card + 1) coords w
  let C' := C ∪ r.1.toFinset
  if doRelate then
    let q := relateE c it C' true r.2
    (C', r.1.toFinset, q.1, q.2)
  else (C', r.1.toFinset, .ok (), r.2)

end

/-- the rows passed to `create` at embeddedcauset.py:118 (`none`: `create` is not called) -/
def CoordsArg.givenRows : CoordsArg → Option (List Row)
  | .none => Option.none
  | .rows rs => some rs
  | .matrix _ rs => some (rs.map List.ofFn)
  | .vector _ => Option.none

/-- `EmbeddedCauset.__init__`, embeddedcauset.py:33-118, with coordinate lists (`embArgs` is everything before `create`) -/
noncomputable def embInitRows (eps : ℝ) (it : Iter) (spacetime : SpacetimeArg) (shape : ShapeArg) (coordinates : CoordsArg) (dim : ℤ)
    (w : World Row) : Except Err EmbObj × World Row :=
  match embArgs spacetime shape coordinates dim with
  | .error x => (.error x, w)
  | .ok (M, S, _) => match coordinates.givenRows with
    | none => (.ok ⟨M, S, ∅⟩, w)
    | some rs =>
      let r := createE (M.causalityRows eps) it ∅ rs none true w
      match r.2.2.1 with
      | .error x => (.error x, r.2.2.2)
      | .ok _ => (.ok ⟨M, S, r.1⟩, r.2.2.2)

end Causets
