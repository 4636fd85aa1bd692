import Verif.Model.EmbInit
import Verif.Model.Calculations
import Mathlib.Analysis.SpecialFunctions.Artanh
import Mathlib.Analysis.SpecialFunctions.Complex.Arg

/-!
# Light cones: `ConePlotter` (spacetimes.py:96-240, 343-461, 490-521, 566-613, 792-883)

Modelled is the geometry of a cone: the rows of the polygon (two dimensions; `none` is the row of NaN that separates two parts), or the coordinate matrices of the
surfaces (three dimensions).  The tests at the beginning of `cone` (spacetimes.py:187-195, 411-418) are `coneArt` in Model/Plotting.lean; the axes object, `add_patch`
and `plot_surface` are not modelled.  `dims` are two or three different natural numbers below the dimension of the spacetime.  Floats are real numbers;
`np.log(0)` is `-inf` in the code and `0` in the model (a sampling point on the horizon), `arctan2` is the argument of a complex number, and
`copysign(x, -0.0)` is not modelled.  Where a function is only defined for a purpose of its caller, the caller's check `samplingsize > 0` is a natural number `n`.
-/

namespace Causets

/-- the geometry of a cone -/
inductive ConeGeom
  | polygon (rows : List (Option (ℝ × ℝ)))
  | surfaces (l : List Patch)

/-- `timeaxis = dims.index(0)` or -1, spacetimes.py:159-163, 355-359 -/
def coneTimeAxis (dims : List ℕ) : ℤ := match dims.idxOf? 0 with
  | some i => i
  | none => -1

/-- `if samplingsize <= 0: samplingsize = default_samplingsize`, spacetimes.py:165-166, 407-408 (default: spacetimes.py:20) -/
def coneSampling (samplingsize : ℤ) : ℕ := if samplingsize ≤ 0 then 128 else samplingsize.toNat

/-- entry `k` of `np.linspace(a, b, n)` -/
noncomputable def linspaceR (a b : ℝ) (n k : ℕ) : ℝ := a + k * ((b - a) / (n - 1))

/-! ## Flat spacetimes -/

/-- `[-k, 0.0, k] if k > 0.0 else [0.0]`, spacetimes.py:385-387, 398-399 -/
noncomputable def axisShifts (k : ℝ) : List ℝ := if test (k > 0) then [-k, 0, k] else [0]

/-- `self.Parameter('period')[d - 1]` for a spatial dimension of a periodic spacetime, else the initial value 0.0, spacetimes.py:362-397 -/
noncomputable def FlatSpacetime.axisPeriod (M : FlatSpacetime) (d : ℕ) : ℝ :=
  if M.isPeriodic ∧ d ≠ 0 then (M.period.getD []).getD (d - 1) 0 else 0

/-- `shifts` for two dimensions, spacetimes.py:391-403 (a spacetime that is not periodic has the shift 0 only, as has the time axis) -/
noncomputable def flatShifts2 (M : FlatSpacetime) (d0 d1 : ℕ) : List (ℝ × ℝ) :=
  (axisShifts (M.axisPeriod d0)).flatMap (fun x => (axisShifts (M.axisPeriod d1)).map (fun y => (x, y)))

/-- `shifts` for three dimensions, spacetimes.py:366-390 -/
noncomputable def flatShifts3 (M : FlatSpacetime) (d0 d1 d2 : ℕ) : List (ℝ × ℝ × ℝ) :=
  (axisShifts (M.axisPeriod d0)).flatMap (fun x => (axisShifts (M.axisPeriod d1)).flatMap (fun y => (axisShifts (M.axisPeriod d2)).map (fun z => (x, y, z))))

/-- `XYpart`, spacetimes.py:437-452; `o` is `origin[dims]`, `s` a shift -/
noncomputable def flatPart (junk : ℕ → Option (ℝ × ℝ)) (timeaxis : ℤ) (r timeslice : ℝ) (n : ℕ) (o s : ℝ × ℝ) : List (Option (ℝ × ℝ)) :=
  if timeaxis = 0 then
    [some (o.1 - s.1, o.2 - s.2), some (timeslice - s.1, o.2 - r - s.2), some (timeslice - s.1, o.2 + r - s.2), some (o.1 - s.1, o.2 - s.2)]
  else if timeaxis = 1 then
    [some (o.1 - s.1, o.2 - s.2), some (o.1 + r - s.1, timeslice - s.2), some (o.1 - r - s.1, timeslice - s.2), some (o.1 - s.1, o.2 - s.2)]
  else circleEdge junk (o.1 - s.1, o.2 - s.2) r 0 n

/-- the loop over the shifts with `np.concatenate`, spacetimes.py:436, 453-455 -/
def joinParts : List (List (Option (ℝ × ℝ))) → List (Option (ℝ × ℝ))
  | [] => []
  | [p] => p
  | p :: q :: ps => p ++ [none] ++ joinParts (q :: ps)

/-- `cone` of `FlatSpacetime.ConePlotter` after the tests, spacetimes.py:410-459 -/
noncomputable def flatCone (junk : ℕ → Option (ℝ × ℝ)) (M : FlatSpacetime) (dims : List ℕ) (timesign : ℝ) (samplingsize : ℤ) (origin : Point) (timeslice : ℝ) :
    Except Err (Option ConeGeom) :=
  let r := timesign * (timeslice - origin 0)
  let n := coneSampling samplingsize
  match dims with
  | [d0, d1, d2] =>
    let o := (origin d0, origin d1, origin d2)
    .ok (some (.surfaces ((flatShifts3 M d0 d1 d2).map (fun s =>
      let o' := (o.1 - s.1, o.2.1 - s.2.1, o.2.2 - s.2.2)
      if coneTimeAxis dims < 0 then ballSurface o' r n else openConeSurface o' r (timesign * r) (coneTimeAxis dims) n))))
  | [d0, d1] =>
    .ok (some (.polygon (joinParts ((flatShifts2 M d0 d1).map (fun s => flatPart junk (coneTimeAxis dims) r timeslice n (origin d0, origin d1) s)))))
  | _ => .error .valueError

/-! ## de Sitter and anti-de Sitter -/

/-- `deSitterSpacetime._XT_slice2`, spacetimes.py:566-569 -/
noncomputable def dSXT2 (alpha t t0 x0 : ℝ) : ℝ × ℝ :=
  (alpha * Real.tanh (Real.artanh x0 - (t - t0) / alpha), alpha * Real.tanh (Real.artanh x0 + (t - t0) / alpha))

/-- `deSitterSpacetime._XY_slice`, spacetimes.py:571-613 (`EllipseEdge` is called with its default sampling) -/
noncomputable def dSXY (junk : ℕ → Option (ℝ × ℝ)) (dim : ℕ) (alpha t : ℝ) (origin : Point) (d0 d1 : ℕ) : Option (List (ℝ × ℝ)) :=
  let r0sq := (∑ i ∈ Finset.Ico 1 dim, (origin i) ^ 2) / alpha ^ 2
  if test (r0sq ≥ 1) then none
  else
    let r0 := Real.sqrt r0sq
    let phi0 := Complex.arg ⟨origin d0, origin d1⟩
    let deltaT := |t - origin 0| / alpha
    let xi := alpha * Real.tanh (Real.artanh r0 - deltaT)
    let xo := alpha * Real.tanh (Real.artanh r0 + deltaT)
    let xc := 0.5 * (xo + xi)
    let a := 0.5 * (xo - xi)
    let b :=
      if test (r0 > 0 ∧ a > 0) then
        let tau := Real.tanh deltaT
        let rs := alpha * Real.sqrt ((1 - r0sq) * tau ^ 2 + r0sq)
        let args := Real.arctan (Real.sqrt (1 - r0sq) * tau / r0) / 1
        Real.sqrt ((rs * Real.sin args) ^ 2 / (1 - ((rs * Real.cos args - xc) / a) ^ 2))
      else a
    let rows := ellipseEdge junk (xc, 0) (a, b) 0 (-1)
    some (rows.filterMap (Option.map (fun p => (p.1 * Real.cos phi0 - p.2 * Real.sin phi0, p.1 * Real.sin phi0 + p.2 * Real.cos phi0))))

/-- rows `0, ..., n-1` and, from the end, `-1, ..., -(n-1)` of `XT`, spacetimes.py:497, 503-505, 519-520: `xmin k`, `xmax k`, `time k` are the values of round `k` -/
def xtRows (n : ℕ) (xmin xmax time : ℕ → ℝ) : List (ℝ × ℝ) :=
  (List.range n).map (fun k => (xmax k, time k)) ++ (List.range (n - 1)).map (fun j => (xmin (n - 1 - j), time (n - 1 - j)))

/-- `np.min` of a column that is not empty -/
noncomputable def npMinR : List ℝ → ℝ
  | [] => 0
  | x :: xs => xs.foldl min x

/-- `np.max` of a column that is not empty -/
noncomputable def npMaxR : List ℝ → ℝ
  | [] => 0
  | x :: xs => xs.foldl max x

/-- the inner loop of `_dSSpacetime._XT_slice`, spacetimes.py:509-518: the columns of the slices with all other spatial dimensions (`none`: one of them is None) -/
noncomputable def dSColumns (junk : ℕ → Option (ℝ × ℝ)) (dim : ℕ) (alpha t : ℝ) (origin : Point) (xdim : ℕ) : Option (List ℝ) :=
  ((List.range' 1 (dim - 1)).filter (· ≠ xdim)).foldl (fun acc ydim => match acc, dSXY junk dim alpha t origin xdim ydim with
    | some l, some rows => some (l ++ rows.map Prod.fst)
    | _, _ => none) (some [])

/-- `_dSSpacetime._XT_slice` for de Sitter, spacetimes.py:494-521 (`n > 0` sampling points; the slice is None or not for all times, as this only depends on the
position of the origin) -/
noncomputable def dSXT (junk : ℕ → Option (ℝ × ℝ)) (dim : ℕ) (alpha t : ℝ) (origin : Point) (xdim n : ℕ) : Option (List (ℝ × ℝ)) :=
  let T := linspaceR (origin 0) t n
  if dim = 2 then
    let x0 := origin 1 / alpha
    if test (|x0| ≥ 1) then none
    else
      let r := fun k => dSXT2 alpha (T k) (origin 0) x0
      some (xtRows n (fun k => min (r k).1 (r k).2) (fun k => max (r k).1 (r k).2) T)
  else
    if (List.range n).any (fun k => (dSColumns junk dim alpha (T k) origin xdim).isNone) then none
    else
      let c := fun k => (dSColumns junk dim alpha (T k) origin xdim).getD []
      some (xtRows n (fun k => npMinR (c k)) (fun k => npMaxR (c k)) T)

/-- the rotation of the surface, spacetimes.py:218-221: `(X, Y, Z)` is `(Z, X, Y)` for the time axis 0 and `(Y, Z, X)` for the time axis 1 -/
def coneRotate (timeaxis : ℤ) (p : ℝ × ℝ × ℝ) : ℝ × ℝ × ℝ :=
  if timeaxis = 0 then (p.2.2, p.1, p.2.1) else if timeaxis = 1 then (p.2.1, p.2.2, p.1) else p

/-- `cone` of `Spacetime.ConePlotter` after the tests, spacetimes.py:196-238, with the slices of the subclass as arguments: `xt t xdim`, `xy t d0 d1` (`xyz` always raises
NotImplementedError).  In three dimensions the slice at each time of the sampling is a row of the surface (all slices have the same number of rows). -/
noncomputable def baseCone (xt : ℝ → ℕ → Except Err (Option (List (Option (ℝ × ℝ))))) (xy : ℝ → ℕ → ℕ → Except Err (Option (List (ℝ × ℝ))))
    (dims : List ℕ) (n : ℕ) (origin : Point) (timeslice : ℝ) : Except Err (Option ConeGeom) :=
  match dims with
  | [d0, d1, d2] =>
    let ta := coneTimeAxis dims
    if ta < 0 then .error .notImplementedError
    else
      let x := if ta = 0 then d1 else if ta = 1 then d2 else d0
      let y := if ta = 0 then d2 else if ta = 1 then d0 else d1
      let T := linspaceR (origin 0) timeslice n
      match (List.range n).mapM (fun k => xy (T k) x y) with
      | .error e => .error e
      | .ok slices => match slices.mapM id with
        | none => .ok none
        | some rows => .ok (some (.surfaces [⟨n, (rows.getD 0 []).length, fun i j =>
            let p := (rows.getD i []).getD j (0, 0)
            coneRotate ta (p.1, p.2, T i)⟩]))
  | [d0, d1] =>
    let ta := coneTimeAxis dims
    if ta < 0 then match xy timeslice d0 d1 with
      | .error e => .error e
      | .ok none => .ok none
      | .ok (some rows) => .ok (some (.polygon (rows.map some)))
    else match xt timeslice (if ta = 0 then d1 else d0) with
      | .error e => .error e
      | .ok none => .ok none
      | .ok (some rows) => .ok (some (.polygon (if ta = 0 then rows.map (Option.map Prod.swap) else rows)))
  | _ => .error .valueError

/-- cones of de Sitter spacetime -/
noncomputable def dSCone (junk : ℕ → Option (ℝ × ℝ)) (dim : ℕ) (alpha : ℝ) (dims : List ℕ) (samplingsize : ℤ) (origin : Point) (timeslice : ℝ) :
    Except Err (Option ConeGeom) :=
  let n := coneSampling samplingsize
  baseCone (fun t xdim => .ok ((dSXT junk dim alpha t origin xdim n).map (·.map some))) (fun t d0 d1 => .ok (dSXY junk dim alpha t origin d0 d1))
    dims n origin timeslice

/-- cones of anti-de Sitter spacetime: `_XT_slice2` and `_XY_slice` are not implemented (spacetimes.py:114-120, 490-492), but `_XT_slice` returns None first if
`abs(x0) >= 1.0` in two dimensions (spacetimes.py:499-501) -/
noncomputable def adSCone (dim : ℕ) (alpha : ℝ) (dims : List ℕ) (samplingsize : ℤ) (origin : Point) (timeslice : ℝ) : Except Err (Option ConeGeom) :=
  baseCone (fun _ _ => if dim = 2 ∧ test (|origin 1 / alpha| ≥ 1) then .ok none else .error .notImplementedError) (fun _ _ _ => .error .notImplementedError)
    dims (coneSampling samplingsize) origin timeslice

/-! ## Black holes -/

/-- `np.copysign(x, y)` -/
noncomputable def copysign (x y : ℝ) : ℝ := if test (y < 0) then -|x| else |x|

/-- `_light_EF(.., derivative=1)` for outgoing rays, spacetimes.py:710-715 -/
noncomputable def lightEFd (rS r : ℝ) : ℝ := 1 + 2 * rS / (r - rS)

/-- `_light_S(.., derivative=1)`, spacetimes.py:736-744 -/
noncomputable def lightSd (rS : ℝ) (ingoing : Bool) (r : ℝ) : ℝ := if ingoing then -1 - rS / (r - rS) else 1 + rS / (r - rS)

/-- `Newton(f, fd, x0, y, xmin, xmax)` with the other default values, calculations.py:75-78 -/
noncomputable def newtonDefault (f fd : ℝ → ℝ) (x0 y : ℝ) (xmin xmax : Option ℝ) : ℝ := newtonsMethod f fd x0 y xmin xmax 0 (1 / 10 ^ 6) 50

/-- `X = np.linspace(a, b, samplingsize)`, `copysign(X, x0)`, `f(X)`: part of a light ray, e.g. spacetimes.py:820-822 -/
noncomputable def rayRows (f : ℝ → ℝ) (x0 a b : ℝ) (n : ℕ) : List (Option (ℝ × ℝ)) :=
  (List.range n).map (fun k => some (copysign (linspaceR a b n k) x0, f (linspaceR a b n k)))

/-- `BlackHoleSpacetime._XT_slice`, Eddington-Finkelstein metric, spacetimes.py:793-802, 857-882; `x0`, `t0` are the coordinates of the origin.  (On the horizon
there are `n + 2` rows, of which the last one or two are set as in the other case.) -/
noncomputable def efXT (rS t t0 x0 : ℝ) (n : ℕ) : List (Option (ℝ × ℝ)) :=
  let r0 := |x0|
  let rin := t0 - t + r0
  let fOut := lightEF rS t0 r0 false
  let t' := if test (r0 < rS) then min t (fOut 0) else t
  let ray :=
    if test (r0 = rS) then [some (x0, t0), some (x0, t)]
    else
      let rOut := if test (r0 < rS) then newtonDefault fOut (lightEFd rS) r0 t' (some 0) (some rS)
        else newtonDefault fOut (lightEFd rS) (1.5 * rS) t' (some rS) none
      rayRows fOut x0 r0 rOut n
  ray ++ (if test (rin < 0) then [some (0, t'), some (0, t0 + r0)] else [some (copysign 1 x0 * rin, t')])

/-- `BlackHoleSpacetime._XT_slice`, Schwarzschild metric, spacetimes.py:793-856 -/
noncomputable def sXT (rS t t0 x0 : ℝ) (n : ℕ) : List (Option (ℝ × ℝ)) :=
  let r0 := |x0|
  let fIn := lightS rS t0 r0 true
  let fdIn := lightSd rS true
  let fOut := lightS rS t0 r0 false
  let fdOut := lightSd rS false
  if test (r0 = rS) then [some (x0, t0), some (x0, t), some (0, t), some (0, t0)]
  else if test (r0 < rS) then
    if test (t > t0) then rayRows fOut x0 r0 0 n ++ (rayRows fIn x0 r0 0 n).reverse
    else
      let rOut := newtonDefault fIn fdIn r0 t (some rS) none
      let rIn := newtonDefault fOut fdOut r0 t (some 0) (some rS)
      rayRows fIn x0 rOut r0 n ++ rayRows fOut x0 r0 rIn n
  else
    let rOut := newtonDefault fOut fdOut r0 t (some rS) none
    let rIn := newtonDefault fIn fdIn r0 t (some rS) none
    let outer := rayRows fOut x0 r0 rOut n ++ rayRows fIn x0 rIn r0 n
    if test (fIn 0 < t ∧ t0 < t) then
      let rIn := newtonDefault fIn fdIn (rS / 2) t (some 0) (some rS)
      outer ++ [none] ++ rayRows fIn x0 rIn 0 n ++ [some (0, t)]
    else outer

/-- cones of a black hole; `_XY_slice` is not implemented -/
noncomputable def bhCone (rS : ℝ) (metric : BHMetric) (dims : List ℕ) (samplingsize : ℤ) (origin : Point) (timeslice : ℝ) : Except Err (Option ConeGeom) :=
  let n := coneSampling samplingsize
  baseCone (fun t xdim => .ok (some (match metric with
    | .schwarzschild => sXT rS t (origin 0) (origin xdim) n
    | .eddingtonFinkelstein => efXT rS t (origin 0) (origin xdim) n))) (fun _ _ _ => .error .notImplementedError) dims n origin timeslice

/-- `ConePlotter(dims, .., timesign, .., samplingsize)(origin, timeslice)` after the tests, for every spacetime of the library (the base class implements no
slice, spacetimes.py:106-129) -/
noncomputable def coneGeom (junk : ℕ → Option (ℝ × ℝ)) (M : SpacetimeObj) (dims : List ℕ) (timesign : ℝ) (samplingsize : ℤ) (origin : Point) (timeslice : ℝ) :
    Except Err (Option ConeGeom) := match M with
  | .base => baseCone (fun _ _ => .error .notImplementedError) (fun _ _ _ => .error .notImplementedError) dims (coneSampling samplingsize) origin timeslice
  | .flat M => flatCone junk M dims timesign samplingsize origin timeslice
  | .deSitter d a => dSCone junk d a dims samplingsize origin timeslice
  | .antiDeSitter d a => adSCone d a dims samplingsize origin timeslice
  | .blackHole r m => bhCone r m dims samplingsize origin timeslice

end Causets
