import Verif.Model.Float32Period

/-!
# The causality functions of curved spacetimes for coordinates in single precision (spacetimes.py)

As in `Verif.Model.Float32Period`: the coordinates are `float32`, the results of the functions of `math` and the operations with them are Python floats, and operations of NumPy scalars with
Python floats are `float64` with NumPy 1 and `float32` with NumPy 2, where the Python float is first converted (also in comparisons).  `A.mix` is this rounding.
-/

namespace Causets

namespace NpArith

variable (A : NpArith)

/-- the rounding of the result of an operation of a `float32` scalar with a Python number, and the conversion of this number -/
def mix : ℝ → ℝ := A.rnd (!A.np2)

/-- `sum(np.square(x[1:]))`, spacetimes.py:548-549 and 643-644, of a `float32` array; the sum starts with the int `0` -/
noncomputable def normSq (dim : ℕ) (x : Point) : ℝ := flSum A.mix ((List.range' 1 (dim - 1)).map fun i => A.r32 (x i ^ 2))

/-- `sum(np.square(y[1:] - x[1:]))`, spacetimes.py:560 and 651, of `float32` arrays -/
noncomputable def spaceSq (dim : ℕ) (x y : Point) : ℝ := flSum A.mix ((List.range' 1 (dim - 1)).map fun i => A.r32 (A.r32 (y i - x i) ^ 2))

/-- `isCausal_dS`, spacetimes.py:546-564, for `float32` coordinates -/
noncomputable def causalityDS32 (lib : MathLib) (eps : ℝ) (dim : ℕ) (alpha alphaSq : ℝ) (x y : Point) : Bool × Bool :=
  let r2x := A.normSq dim x
  let r2y := A.normSq dim y
  if test (r2x ≥ A.mix alphaSq) || test (r2y ≥ A.mix alphaSq) then (false, false)
  else
    let ampX := lib.sqrt (A.mix (A.mix alphaSq - r2x))
    let ampY := lib.sqrt (A.mix (A.mix alphaSq - r2y))
    let x0x := A.r64 (ampX * lib.sinh (A.mix (x 0 / A.mix alpha)))
    let x1x := A.r64 (ampX * lib.cosh (A.mix (x 0 / A.mix alpha)))
    let x0y := A.r64 (ampY * lib.sinh (A.mix (y 0 / A.mix alpha)))
    let x1y := A.r64 (ampY * lib.cosh (A.mix (y 0 / A.mix alpha)))
    let x0Delta := A.r64 (x0y - x0x)
    let isCausal := test (A.mix (lib.sq x0Delta) ≥ A.mix (A.mix (A.spaceSq dim x y + A.mix (lib.sq (A.r64 (x1y - x1x)))) - A.mix eps))
    (test (x0Delta ≥ 0) && isCausal, test (x0Delta < 0) && isCausal)

/-- `isCausal_AdS`, spacetimes.py:641-654, for `float32` coordinates -/
noncomputable def causalityAdS32 (lib : MathLib) (eps : ℝ) (dim : ℕ) (alpha alphaSq : ℝ) (x y : Point) : Bool × Bool :=
  let ampX := lib.sqrt (A.mix (A.mix alphaSq + A.normSq dim x))
  let ampY := lib.sqrt (A.mix (A.mix alphaSq + A.normSq dim y))
  let x0x := A.r64 (ampX * lib.sin (A.mix (x 0 / A.mix alpha)))
  let x1x := A.r64 (ampX * lib.cos (A.mix (x 0 / A.mix alpha)))
  let x0y := A.r64 (ampY * lib.sin (A.mix (y 0 / A.mix alpha)))
  let x1y := A.r64 (ampY * lib.cos (A.mix (y 0 / A.mix alpha)))
  let x0Delta := A.r64 (x0y - x0x)
  let isCausal := test (A.mix (A.r64 (lib.sq x0Delta + lib.sq (A.r64 (x1y - x1x)))) ≥ A.mix (A.spaceSq dim x y - A.mix eps))
  (test (x0Delta ≥ 0) && isCausal, test (x0Delta < 0) && isCausal)

/-- `_light_EF(0.0, 0.0)`, spacetimes.py:705-709, and `_light_S(0.0, 0.0)`, spacetimes.py:730-734, of a `float32` radius; `log` is `np.log` in the type that `A.mix` rounds to -/
noncomputable def light32 (log : ℝ → ℝ) (metric : BHMetric) (rS r : ℝ) : ℝ :=
  let k := if metric = .schwarzschild then rS else A.r64 (2 * rS)
  A.mix (A.mix (A.mix (r - 0) + 0) + A.mix (A.mix k * log |A.mix (A.mix (r - A.mix rS) / A.mix (A.r64 (0 - rS)))|))

/-- `isCausal_BH2D`, spacetimes.py:755-788, for `float32` coordinates -/
noncomputable def causalityBH32 (log : ℝ → ℝ) (metric : BHMetric) (rS : ℝ) (x y : Point) : Bool × Bool :=
  let isS := metric = .schwarzschild
  let func := A.light32 log metric rS
  if test (A.r32 (x 1 * y 1) < 0) then (false, false)
  else
    let tDelta := A.r32 (y 0 - x 0)
    let rx := |x 1|
    let ry := |y 1|
    let isSwapped := if test (isS ∧ (rx < A.mix rS ∨ ry < A.mix rS)) then test (rx < ry) else test (tDelta < 0)
    let rx' := if isSwapped then ry else rx
    let ry' := if isSwapped then rx else ry
    let tDelta' := if isSwapped then -tDelta else tDelta
    let tOut := A.mix (func ry' - func rx')
    let tIn := if isS then -tOut else A.r32 (rx' - ry')
    let isCausal :=
      if test (ry' ≤ rx' ∧ rx' ≤ A.mix rS) then test (tOut ≥ tDelta' ∧ tDelta' ≥ tIn)
      else if test (A.mix rS ≤ rx' ∧ rx' ≥ ry') then test (tDelta' ≥ tIn)
      else if test (A.mix rS ≤ rx' ∧ rx' ≤ ry') then test (tDelta' ≥ tOut)
      else false
    if isSwapped then (false, isCausal) else (isCausal, false)

end NpArith

end Causets
