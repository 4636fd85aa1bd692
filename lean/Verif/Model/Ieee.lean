import Verif.Model.FloatBH
import Verif.Model.Horizon

/-!
# The causality functions with `inf` and `nan` (spacetimes.py)

The same functions as in `Verif.Model.FloatCausality` and `Verif.Model.FloatBH`, now with all values of a binary64 number: a result of `2^1024` or more (after rounding) is `inf`, coordinates may
be `inf` or `nan`.  `-0.0` is `0`: the only division by a number that may be zero or the logarithm of zero is behind `np.abs`, so the sign of a zero has no effect.  numpy's operations never raise
(they warn); `math.sinh`, `math.cosh` and `**` of Python floats raise OverflowError if the result of finite numbers is too large, `math.sin`, `math.cos` of an infinite number and `math.sqrt` of
a negative number raise ValueError.
-/

namespace Causets

/-- coordinates of a point as binary64 values -/
abbrev FPoint := ℕ → NpReal

/-- the bound of the binary64 numbers -/
noncomputable def huge : ℝ := 2 ^ 1024

namespace NpReal

/-- overflow: a rounded number from `2^1024` on is infinite (IEEE 754) -/
noncomputable def cap (z : ℝ) : NpReal := if test (z ≥ huge) then pinf else if test (z ≤ -huge) then ninf else fin z

/-- `z - w` -/
noncomputable def subF (rnd : ℝ → ℝ) : NpReal → NpReal → NpReal
  | nan, _ => nan
  | _, nan => nan
  | ninf, ninf => nan
  | pinf, pinf => nan
  | ninf, _ => ninf
  | pinf, _ => pinf
  | fin _, ninf => pinf
  | fin _, pinf => ninf
  | fin a, fin b => cap (rnd (a - b))

/-- `z + w` -/
noncomputable def addF (rnd : ℝ → ℝ) : NpReal → NpReal → NpReal
  | nan, _ => nan
  | _, nan => nan
  | ninf, pinf => nan
  | pinf, ninf => nan
  | ninf, _ => ninf
  | pinf, _ => pinf
  | fin _, ninf => ninf
  | fin _, pinf => pinf
  | fin a, fin b => cap (rnd (a + b))

/-- the sign of a number (0 for `nan`) -/
noncomputable def sign : NpReal → ℝ
  | nan => 0
  | ninf => -1
  | pinf => 1
  | fin a => if test (a > 0) then 1 else if test (a < 0) then -1 else 0

/-- `inf` with the sign of `s`, `nan` if it is 0 -/
noncomputable def infOf (s : ℝ) : NpReal := if test (s > 0) then pinf else if test (s < 0) then ninf else nan

/-- `z * w` -/
noncomputable def mulF (rnd : ℝ → ℝ) : NpReal → NpReal → NpReal
  | nan, _ => nan
  | _, nan => nan
  | fin a, fin b => cap (rnd (a * b))
  | z, w => infOf (sign z * sign w)

/-- `z / a` for a finite `a` that is not zero -/
noncomputable def divF (rnd : ℝ → ℝ) (a : ℝ) : NpReal → NpReal
  | nan => nan
  | ninf => if test (a > 0) then ninf else pinf
  | pinf => if test (a > 0) then pinf else ninf
  | fin z => cap (rnd (z / a))

/-- `abs(z)` -/
noncomputable def abs : NpReal → NpReal
  | nan => nan
  | ninf => pinf
  | pinf => pinf
  | fin a => fin |a|

/-- `z < w` (false if one of them is `nan`) -/
noncomputable def lt : NpReal → NpReal → Bool
  | nan, _ => false
  | _, nan => false
  | pinf, _ => false
  | _, ninf => false
  | ninf, _ => true
  | fin _, pinf => true
  | fin a, fin b => test (a < b)

/-- Python's `min(z, w)`: the second one if it is less -/
noncomputable def min (z w : NpReal) : NpReal := if lt w z then w else z

/-- the square of a numpy number (`np.square` with `sq a = rnd (a ^ 2)`, `**2` with `sq` the platform's power function) -/
noncomputable def sqF (sq : ℝ → ℝ) : NpReal → NpReal
  | nan => nan
  | ninf => pinf
  | pinf => pinf
  | fin a => cap (sq a)

/-- `sum(...)`, from left to right -/
noncomputable def sumF (rnd : ℝ → ℝ) (l : List NpReal) : NpReal := l.foldl (addF rnd) (fin 0)

/-- `np.log(z)` for `z >= 0`, with the logarithm `log` of the platform -/
noncomputable def logF (log : ℝ → ℝ) : NpReal → NpReal
  | nan => nan
  | ninf => nan
  | pinf => pinf
  | fin a => if test (a = 0) then ninf else fin (log a)

end NpReal

open NpReal

/-! ## flat spacetimes -/

/-- `Spacetime.Causality`, spacetimes.py:80-94 -/
noncomputable def causalityBaseIeee (rnd : ℝ → ℝ) (x y : FPoint) : Bool × Bool :=
  let tDelta := subF rnd (y 0) (x 0)
  (tDelta.ge (fin 0), tDelta.lt (fin 0))

/-- `isCausal_flat2D`, spacetimes.py:295-302 -/
noncomputable def causalityFlat2DIeee (rnd : ℝ → ℝ) (eps : ℝ) (x y : FPoint) : Bool × Bool :=
  let tDelta := subF rnd (y 0) (x 0)
  let isCausal := tDelta.abs.ge (subF rnd (subF rnd (y 1) (x 1)).abs (fin eps))
  (tDelta.ge (fin 0) && isCausal, tDelta.lt (fin 0) && isCausal)

/-- `sum(np.square(y[1:] - x[1:]))`, spacetimes.py:308, 560 and 651 -/
noncomputable def spaceSqIeee (rnd : ℝ → ℝ) (dim : ℕ) (x y : FPoint) : NpReal :=
  sumF rnd ((List.range' 1 (dim - 1)).map fun i => sqF (fun a => rnd (a ^ 2)) (subF rnd (y i) (x i)))

/-- `isCausal_flat`, spacetimes.py:304-311 -/
noncomputable def causalityFlatIeee (rnd : ℝ → ℝ) (eps : ℝ) (dim : ℕ) (x y : FPoint) : Bool × Bool :=
  let tDelta := subF rnd (y 0) (x 0)
  let isCausal := (sqF (fun a => rnd (a ^ 2)) tDelta).ge (subF rnd (spaceSqIeee rnd dim x y) (fin eps))
  (tDelta.ge (fin 0) && isCausal, tDelta.lt (fin 0) && isCausal)

/-- the distance along a periodic direction, spacetimes.py:318-320 and 332-335 -/
noncomputable def periodicDeltaIeee (rnd : ℝ → ℝ) (period : ℝ) (a b : NpReal) : NpReal :=
  let rDelta := (subF rnd a b).abs
  if test (period > 0) then NpReal.min rDelta (subF rnd (fin period) rDelta) else rDelta

/-- `isCausal_flat2Dperiodic`, spacetimes.py:315-325 -/
noncomputable def causalityFlat2DPeriodicIeee (rnd : ℝ → ℝ) (eps : ℝ) (period : ℕ → ℝ) (x y : FPoint) : Bool × Bool :=
  let tDelta := subF rnd (y 0) (x 0)
  let isCausal := tDelta.abs.ge (subF rnd (periodicDeltaIeee rnd (period 0) (y 1) (x 1)).abs (fin eps))
  (tDelta.ge (fin 0) && isCausal, tDelta.lt (fin 0) && isCausal)

/-- `isCausal_flatperiodic`, spacetimes.py:327-341; `sq` is the `**2` of line 336 -/
noncomputable def causalityFlatPeriodicIeee (rnd sq : ℝ → ℝ) (eps : ℝ) (dim : ℕ) (period : ℕ → ℝ) (x y : FPoint) : Bool × Bool :=
  let tDelta := subF rnd (y 0) (x 0)
  let r2Delta := sumF rnd ((List.range' 1 (dim - 1)).map fun i => sqF sq (periodicDeltaIeee rnd (period (i - 1)) (y i) (x i)))
  let isCausal := (sqF (fun a => rnd (a ^ 2)) tDelta).ge (subF rnd r2Delta (fin eps))
  (tDelta.ge (fin 0) && isCausal, tDelta.lt (fin 0) && isCausal)

/-- `FlatSpacetime.Causality`, spacetimes.py:289-341 -/
noncomputable def FlatSpacetime.causalityIeee (rnd sq : ℝ → ℝ) (eps : ℝ) (M : FlatSpacetime) : FPoint → FPoint → Bool × Bool :=
  if M.dim = 1 then causalityBaseIeee rnd
  else if !M.isPeriodic then
    if M.dim = 2 then causalityFlat2DIeee rnd eps else causalityFlatIeee rnd eps M.dim
  else
    let period : ℕ → ℝ := fun i => (M.period.getD []).getD i 0
    if M.dim = 2 then causalityFlat2DPeriodicIeee rnd eps period else causalityFlatPeriodicIeee rnd sq eps M.dim period

/-! ## de Sitter and anti-de Sitter -/

/-- `math.sqrt` -/
noncomputable def mathSqrt (sqrt : ℝ → ℝ) : NpReal → Except Err NpReal
  | .nan => .ok .nan
  | .ninf => .error .valueError
  | .pinf => .ok .pinf
  | .fin a => if test (a < 0) then .error .valueError else .ok (.fin (sqrt a))

/-- `math.sinh`: OverflowError if the result is too large -/
noncomputable def mathSinh (sinh : ℝ → ℝ) : NpReal → Except Err NpReal
  | .nan => .ok .nan
  | .ninf => .ok .ninf
  | .pinf => .ok .pinf
  | .fin a => if test (|sinh a| ≥ huge) then .error .overflowError else .ok (.fin (sinh a))

/-- `math.cosh`: OverflowError if the result is too large -/
noncomputable def mathCosh (cosh : ℝ → ℝ) : NpReal → Except Err NpReal
  | .nan => .ok .nan
  | .ninf => .ok .pinf
  | .pinf => .ok .pinf
  | .fin a => if test (|cosh a| ≥ huge) then .error .overflowError else .ok (.fin (cosh a))

/-- `math.sin`, `math.cos`: ValueError for infinite arguments -/
noncomputable def mathTrig (f : ℝ → ℝ) : NpReal → Except Err NpReal
  | .nan => .ok .nan
  | .ninf => .error .valueError
  | .pinf => .error .valueError
  | .fin a => .ok (.fin (f a))

/-- `z**2` of a Python float: OverflowError if the result is too large -/
noncomputable def pySq (sq : ℝ → ℝ) : NpReal → Except Err NpReal
  | .nan => .ok .nan
  | .ninf => .ok .pinf
  | .pinf => .ok .pinf
  | .fin a => if test (|sq a| ≥ huge) then .error .overflowError else .ok (.fin (sq a))

/-- `sum(np.square(x[1:]))`, spacetimes.py:548 and 643 -/
noncomputable def normSqIeee (rnd : ℝ → ℝ) (dim : ℕ) (x : FPoint) : NpReal :=
  sumF rnd ((List.range' 1 (dim - 1)).map fun i => sqF (fun a => rnd (a ^ 2)) (x i))

/-- `isCausal_dS`, spacetimes.py:546-564; `alphaSq` is `_alpha_sq`, spacetimes.py:483 -/
noncomputable def causalityDSIeee (rnd : ℝ → ℝ) (lib : MathLib) (eps : ℝ) (dim : ℕ) (alpha alphaSq : ℝ) (x y : FPoint) : Except Err (Bool × Bool) :=
  let r2x := normSqIeee rnd dim x
  let r2y := normSqIeee rnd dim y
  if r2x.ge (fin alphaSq) || r2y.ge (fin alphaSq) then .ok (false, false)
  else do
    let ampX ← mathSqrt lib.sqrt (subF rnd (fin alphaSq) r2x)
    let ampY ← mathSqrt lib.sqrt (subF rnd (fin alphaSq) r2y)
    let x0x := mulF rnd ampX (← mathSinh lib.sinh (divF rnd alpha (x 0)))
    let x1x := mulF rnd ampX (← mathCosh lib.cosh (divF rnd alpha (x 0)))
    let x0y := mulF rnd ampY (← mathSinh lib.sinh (divF rnd alpha (y 0)))
    let x1y := mulF rnd ampY (← mathCosh lib.cosh (divF rnd alpha (y 0)))
    let x0Delta := subF rnd x0y x0x
    let lhs ← pySq lib.sq x0Delta
    let d ← pySq lib.sq (subF rnd x1y x1x)
    let isCausal := lhs.ge (subF rnd (addF rnd (spaceSqIeee rnd dim x y) d) (fin eps))
    return (x0Delta.ge (fin 0) && isCausal, x0Delta.lt (fin 0) && isCausal)

/-- `isCausal_AdS`, spacetimes.py:641-654 -/
noncomputable def causalityAdSIeee (rnd : ℝ → ℝ) (lib : MathLib) (eps : ℝ) (dim : ℕ) (alpha alphaSq : ℝ) (x y : FPoint) : Except Err (Bool × Bool) := do
  let ampX ← mathSqrt lib.sqrt (addF rnd (fin alphaSq) (normSqIeee rnd dim x))
  let ampY ← mathSqrt lib.sqrt (addF rnd (fin alphaSq) (normSqIeee rnd dim y))
  let x0x := mulF rnd ampX (← mathTrig lib.sin (divF rnd alpha (x 0)))
  let x1x := mulF rnd ampX (← mathTrig lib.cos (divF rnd alpha (x 0)))
  let x0y := mulF rnd ampY (← mathTrig lib.sin (divF rnd alpha (y 0)))
  let x1y := mulF rnd ampY (← mathTrig lib.cos (divF rnd alpha (y 0)))
  let x0Delta := subF rnd x0y x0x
  let d0 ← pySq lib.sq x0Delta
  let d1 ← pySq lib.sq (subF rnd x1y x1x)
  let isCausal := (addF rnd d0 d1).ge (subF rnd (spaceSqIeee rnd dim x y) (fin eps))
  return (x0Delta.ge (fin 0) && isCausal, x0Delta.lt (fin 0) && isCausal)

/-! ## black holes -/

/-- `_light_EF(0.0, 0.0)`, spacetimes.py:705-709, and `_light_S(0.0, 0.0)`, spacetimes.py:730-734 -/
noncomputable def lightIeee (rnd log : ℝ → ℝ) (metric : BHMetric) (rS : ℝ) (r : NpReal) : NpReal :=
  let k := if metric = .schwarzschild then fin rS else cap (rnd (2 * rS))
  addF rnd (addF rnd (subF rnd r (fin 0)) (fin 0)) (mulF rnd k (logF log (divF rnd (rnd (0 - rS)) (subF rnd r (fin rS))).abs))

/-- `isCausal_BH2D`, spacetimes.py:755-788 -/
noncomputable def causalityBHIeee (rnd log : ℝ → ℝ) (metric : BHMetric) (rS : ℝ) (x y : FPoint) : Bool × Bool :=
  let isS := metric = .schwarzschild
  let func := lightIeee rnd log metric rS
  if (mulF rnd (x 1) (y 1)).lt (fin 0) then (false, false)
  else
    let tDelta := subF rnd (y 0) (x 0)
    let rx := (x 1).abs
    let ry := (y 1).abs
    let isSwapped := if test isS && (rx.lt (fin rS) || ry.lt (fin rS)) then rx.lt ry else tDelta.lt (fin 0)
    let rx' := if isSwapped then ry else rx
    let ry' := if isSwapped then rx else ry
    let tDelta' := if isSwapped then tDelta.neg else tDelta
    let tOut := subF rnd (func ry') (func rx')
    let tIn := if test isS then tOut.neg else subF rnd rx' ry'
    let isCausal :=
      if rx'.ge ry' && NpReal.ge (fin rS) rx' then tOut.ge tDelta' && tDelta'.ge tIn
      else if rx'.ge (fin rS) && rx'.ge ry' then tDelta'.ge tIn
      else if rx'.ge (fin rS) && ry'.ge rx' then tDelta'.ge tOut
      else false
    if isSwapped then (false, isCausal) else (isCausal, false)

end Causets
