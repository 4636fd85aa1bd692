import Verif.Model.Base
import Mathlib.Analysis.SpecialFunctions.Trigonometric.Arctan
import Mathlib.Analysis.SpecialFunctions.Log.Basic
import Mathlib.Analysis.SpecialFunctions.Pow.Real
import Mathlib.Analysis.Real.Sqrt

/-!
# Spacetimes (spacetimes.py): constructors and causality functions

Coordinates are a function `ℕ → ℝ`, of which the first `dim` values matter (`x[1:]` has the indices `1, ..., dim - 1`).
Floating point numbers are modelled by real numbers, so rounding errors are not modelled; the tolerance `causality_eps` of the code is a
parameter `eps` (`causalityEps` is the value in the code).  Plotting of light cones is not modelled here.
-/

namespace Causets

open Classical in
/-- a comparison of real numbers, as `bool` -/
noncomputable abbrev test (p : Prop) : Bool := decide p

/-- coordinates of a point -/
abbrev Point := ℕ → ℝ

/-- `causality_eps`, spacetimes.py:21 -/
noncomputable def causalityEps : ℝ := 1 / 10 ^ 12

/-- `sum(np.square(y[1:] - x[1:]))`, as in spacetimes.py:308 -/
noncomputable def spaceSq (dim : ℕ) (x y : Point) : ℝ := ∑ i ∈ Finset.Ico 1 dim, (y i - x i) ^ 2

/-- `Spacetime.Causality`, spacetimes.py:80-94 -/
noncomputable def causalityBase (x y : Point) : Bool × Bool :=
  let tDelta := y 0 - x 0
  (test (tDelta ≥ 0), test (tDelta < 0))

/-- `isCausal_flat2D`, spacetimes.py:295-302 -/
noncomputable def causalityFlat2D (eps : ℝ) (x y : Point) : Bool × Bool :=
  let tDelta := y 0 - x 0
  let isCausal := test (|tDelta| ≥ |y 1 - x 1| - eps)
  (test (tDelta ≥ 0) && isCausal, test (tDelta < 0) && isCausal)

/-- `isCausal_flat`, spacetimes.py:304-311 -/
noncomputable def causalityFlat (eps : ℝ) (dim : ℕ) (x y : Point) : Bool × Bool :=
  let tDelta := y 0 - x 0
  let isCausal := test (tDelta ^ 2 ≥ spaceSq dim x y - eps)
  (test (tDelta ≥ 0) && isCausal, test (tDelta < 0) && isCausal)

/-- the distance along a periodic direction, spacetimes.py:318-320 and 332-335 -/
noncomputable def periodicDelta (period : ℝ) (d : ℝ) : ℝ := if period > 0 then min |d| (period - |d|) else |d|

/-- `isCausal_flat2Dperiodic`, spacetimes.py:315-325; `period` are the entries of `_period` -/
noncomputable def causalityFlat2DPeriodic (eps : ℝ) (period : ℕ → ℝ) (x y : Point) : Bool × Bool :=
  let tDelta := y 0 - x 0
  let rDelta := periodicDelta (period 0) (y 1 - x 1)
  let isCausal := test (|tDelta| ≥ |rDelta| - eps)
  (test (tDelta ≥ 0) && isCausal, test (tDelta < 0) && isCausal)

/-- `isCausal_flatperiodic`, spacetimes.py:327-341 -/
noncomputable def causalityFlatPeriodic (eps : ℝ) (dim : ℕ) (period : ℕ → ℝ) (x y : Point) : Bool × Bool :=
  let tDelta := y 0 - x 0
  let r2Delta := ∑ i ∈ Finset.Ico 1 dim, (periodicDelta (period (i - 1)) (y i - x i)) ^ 2
  let isCausal := test (tDelta ^ 2 ≥ r2Delta - eps)
  (test (tDelta ≥ 0) && isCausal, test (tDelta < 0) && isCausal)

/-- the argument `period` of `FlatSpacetime.__init__`: a float, a tuple of floats, or anything else (e.g. an `int`) -/
inductive PeriodArg
  | float (p : ℝ)
  | tuple (ps : List ℝ)
  | other

/-- a `FlatSpacetime` object: `_dim`, `_params['isPeriodic']`, `_params['period']` (absent: `none`) -/
structure FlatSpacetime where
  dim : ℕ
  isPeriodic : Bool
  period : Option (List ℝ)

namespace FlatSpacetime

open Classical in
/-- `FlatSpacetime.__init__`, spacetimes.py:254-278 -/
noncomputable def init (dim : ℤ) (period : PeriodArg) : Except Err FlatSpacetime :=
  if dim < 1 then .error .valueError
  else match period with
    | .float p =>
      if p > 0 then .ok ⟨dim.toNat, true, some (List.replicate (dim.toNat - 1) p)⟩ else .ok ⟨dim.toNat, false, none⟩
    | .tuple ps =>
      if (ps.length : ℤ) = dim - 1 then
        if ∃ p ∈ ps, p > 0 then .ok ⟨dim.toNat, true, some ps⟩ else .ok ⟨dim.toNat, false, none⟩
      else .error .valueError
    | .other => .error .valueError

/-- `FlatSpacetime.__repr__`, spacetimes.py:280-282: the parameters that are printed -/
noncomputable def repr (M : FlatSpacetime) : Except Err (ℕ × List ℝ) := match M.period with
  | some ps => .ok (M.dim, ps)
  | none => .error .keyError

/-- `FlatSpacetime.Causality`, spacetimes.py:289-341 (with `eps` for `causality_eps`) -/
noncomputable def causality (eps : ℝ) (M : FlatSpacetime) : Point → Point → Bool × Bool :=
  if M.dim = 1 then causalityBase
  else if !M.isPeriodic then
    if M.dim = 2 then causalityFlat2D eps else causalityFlat eps M.dim
  else
    let period : ℕ → ℝ := fun i => (M.period.getD []).getD i 0
    if M.dim = 2 then causalityFlat2DPeriodic eps period else causalityFlatPeriodic eps M.dim period

end FlatSpacetime

/-! ## De Sitter and anti-de Sitter -/

/-- the parameter checks in `_dSSpacetime.__init__`, spacetimes.py:473-484, `deSitterSpacetime.__init__`, 529-541, and
`AntideSitterSpacetime.__init__`, 625-636 -/
noncomputable def dSInit (dim : ℤ) (alpha : ℝ) : Except Err (ℕ × ℝ) :=
  if dim < 2 then .error .valueError
  else if test (alpha > 0) then .ok (dim.toNat, alpha)
  else .error .valueError

/-- `isCausal_dS`, spacetimes.py:546-564 -/
noncomputable def causalityDS (eps : ℝ) (dim : ℕ) (alpha : ℝ) (x y : Point) : Bool × Bool :=
  let r2x := ∑ i ∈ Finset.Ico 1 dim, (x i) ^ 2
  let r2y := ∑ i ∈ Finset.Ico 1 dim, (y i) ^ 2
  if test (r2x ≥ alpha ^ 2) || test (r2y ≥ alpha ^ 2) then (false, false)
  else
    let ampX := Real.sqrt (alpha ^ 2 - r2x)
    let ampY := Real.sqrt (alpha ^ 2 - r2y)
    let x0x := ampX * Real.sinh (x 0 / alpha)
    let x1x := ampX * Real.cosh (x 0 / alpha)
    let x0y := ampY * Real.sinh (y 0 / alpha)
    let x1y := ampY * Real.cosh (y 0 / alpha)
    let x0Delta := x0y - x0x
    let isCausal := test (x0Delta ^ 2 ≥ spaceSq dim x y + (x1y - x1x) ^ 2 - eps)
    (test (x0Delta ≥ 0) && isCausal, test (x0Delta < 0) && isCausal)

/-- `isCausal_AdS`, spacetimes.py:641-654 -/
noncomputable def causalityAdS (eps : ℝ) (dim : ℕ) (alpha : ℝ) (x y : Point) : Bool × Bool :=
  let ampX := Real.sqrt (alpha ^ 2 + ∑ i ∈ Finset.Ico 1 dim, (x i) ^ 2)
  let ampY := Real.sqrt (alpha ^ 2 + ∑ i ∈ Finset.Ico 1 dim, (y i) ^ 2)
  let x0x := ampX * Real.sin (x 0 / alpha)
  let x1x := ampX * Real.cos (x 0 / alpha)
  let x0y := ampY * Real.sin (y 0 / alpha)
  let x1y := ampY * Real.cos (y 0 / alpha)
  let x0Delta := x0y - x0x
  let isCausal := test (x0Delta ^ 2 + (x1y - x1x) ^ 2 ≥ spaceSq dim x y - eps)
  (test (x0Delta ≥ 0) && isCausal, test (x0Delta < 0) && isCausal)

/-! ## Black hole -/

/-- `metric` -/
inductive BHMetric
  | eddingtonFinkelstein
  | schwarzschild
  deriving DecidableEq

/-- `BlackHoleSpacetime.__init__`, spacetimes.py:664-687 (a metric name that is not supported is `none`) -/
noncomputable def bhInit (dim : ℤ) (rS : ℝ) (metric : Option BHMetric) : Except Err (ℝ × BHMetric) :=
  if dim < 2 then .error .valueError
  else if dim > 2 then .error .valueError
  else match metric with
    | none => .error .valueError
    | some m => if test (rS > 0) then .ok (rS, m) else .error .valueError

/-- `_light_EF` with `derivative=0`, spacetimes.py:693-709 -/
noncomputable def lightEF (rS t0 r0 : ℝ) (ingoing : Bool) (r : ℝ) : ℝ :=
  if ingoing then r0 - r + t0 else r - r0 + t0 + 2 * rS * Real.log |(r - rS) / (r0 - rS)|

/-- `_light_S` with `derivative=0`, spacetimes.py:718-734 -/
noncomputable def lightS (rS t0 r0 : ℝ) (ingoing : Bool) (r : ℝ) : ℝ :=
  if ingoing then r0 - r + t0 - rS * Real.log |(r - rS) / (r0 - rS)|
  else r - r0 + t0 + rS * Real.log |(r - rS) / (r0 - rS)|

/-- `isCausal_BH2D`, spacetimes.py:755-788.  On the horizon numpy's logarithm is `-inf`, the model's is `0`: theorems about this
definition are only about points off the horizon; `causalityBHNp` (Model/Horizon.lean) has the values on the horizon, too. -/
noncomputable def causalityBH (metric : BHMetric) (rS : ℝ) (x y : Point) : Bool × Bool :=
  let isS := metric = .schwarzschild
  let func : ℝ → ℝ := if isS then lightS rS 0 0 false else lightEF rS 0 0 false
  if test (x 1 * y 1 < 0) then (false, false)
  else
    let tDelta := y 0 - x 0
    let rx := |x 1|
    let ry := |y 1|
    let isSwapped := if test (isS ∧ (rx < rS ∨ ry < rS)) then test (rx < ry) else test (tDelta < 0)
    let rx' := if isSwapped then ry else rx
    let ry' := if isSwapped then rx else ry
    let tDelta' := if isSwapped then -tDelta else tDelta
    let tOut := func ry' - func rx'
    let tIn := if isS then -tOut else rx' - ry'
    let isCausal :=
      if test (ry' ≤ rx' ∧ rx' ≤ rS) then test (tOut ≥ tDelta' ∧ tDelta' ≥ tIn)
      else if test (rS ≤ rx' ∧ rx' ≥ ry') then test (tDelta' ≥ tIn)
      else if test (rS ≤ rx' ∧ rx' ≤ ry') then test (tDelta' ≥ tOut)
      else false
    if isSwapped then (false, isCausal) else (isCausal, false)

end Causets
