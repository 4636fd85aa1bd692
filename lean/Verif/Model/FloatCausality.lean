import Verif.Model.Spacetimes
import Mathlib.Algebra.Order.Round
import Mathlib.Data.Int.Log

/-!
# The causality functions in floating point arithmetic (spacetimes.py)

The same functions as in `Verif.Model.Spacetimes`, but now every arithmetic operation of the code is followed by the rounding `rnd` of its
exact result to a binary64 number, as IEEE 754 demands of numpy's and Python's float arithmetic.  `rnd` is a parameter (the
theorems are about all roundings to a nearest number; `rnd64` is the one in use: ties to even).  The functions of the mathematical library
(`math.sqrt`, `math.sinh`, ..., and `pow` behind `z**2`), whose errors depend on the platform, are arbitrary functions.  Overflow to
`inf` is not modelled: the exponents of `Binary64` have no upper limit.  `-0.0` is `0`.
-/

namespace Causets

/-- the binary64 numbers (53 bits, least exponent `-1074`, including subnormal numbers and without overflow) -/
def Binary64 : Set ℝ := {z | ∃ m e : ℤ, |m| < 2 ^ 53 ∧ -1074 ≤ e ∧ z = m * (2 : ℝ) ^ e}

/-- round to the nearest integer, ties to the even one -/
noncomputable def roundEven (z : ℝ) : ℤ :=
  if Int.fract z < 1 / 2 then ⌊z⌋ else if 1 / 2 < Int.fract z then ⌊z⌋ + 1 else if Even ⌊z⌋ then ⌊z⌋ else ⌊z⌋ + 1

/-- the exponent of the last bit of the binary64 numbers near `z` -/
noncomputable def lastBit (z : ℝ) : ℤ := max (-1074) (Int.log 2 |z| - 52)

/-- rounding of the exact result of an arithmetic operation to binary64 (IEEE 754, round to nearest, ties to even) -/
noncomputable def rnd64 (z : ℝ) : ℝ := roundEven (z / (2 : ℝ) ^ lastBit z) * (2 : ℝ) ^ lastBit z

/-- `sum(...)` of an array, from left to right, with rounding (the start `0 + a` is exact), as in spacetimes.py:308 -/
noncomputable def flSum (rnd : ℝ → ℝ) (l : List ℝ) : ℝ := l.foldl (fun s q => rnd (s + q)) 0

/-- `sum(np.square(y[1:] - x[1:]))`, spacetimes.py:308, 560 and 651 -/
noncomputable def flSpaceSq (rnd : ℝ → ℝ) (dim : ℕ) (x y : Point) : ℝ :=
  flSum rnd ((List.range' 1 (dim - 1)).map fun i => rnd (rnd (y i - x i) ^ 2))

/-- `sum(np.square(x[1:]))`, spacetimes.py:548 and 643 -/
noncomputable def flNormSq (rnd : ℝ → ℝ) (dim : ℕ) (x : Point) : ℝ :=
  flSum rnd ((List.range' 1 (dim - 1)).map fun i => rnd (x i ^ 2))

/-- `Spacetime.Causality`, spacetimes.py:80-94 -/
noncomputable def causalityBaseFl (rnd : ℝ → ℝ) (x y : Point) : Bool × Bool :=
  let tDelta := rnd (y 0 - x 0)
  (test (tDelta ≥ 0), test (tDelta < 0))

/-- `isCausal_flat2D`, spacetimes.py:295-302 -/
noncomputable def causalityFlat2DFl (rnd : ℝ → ℝ) (eps : ℝ) (x y : Point) : Bool × Bool :=
  let tDelta := rnd (y 0 - x 0)
  let isCausal := test (|tDelta| ≥ rnd (|rnd (y 1 - x 1)| - eps))
  (test (tDelta ≥ 0) && isCausal, test (tDelta < 0) && isCausal)

/-- `isCausal_flat`, spacetimes.py:304-311 -/
noncomputable def causalityFlatFl (rnd : ℝ → ℝ) (eps : ℝ) (dim : ℕ) (x y : Point) : Bool × Bool :=
  let tDelta := rnd (y 0 - x 0)
  let isCausal := test (rnd (tDelta ^ 2) ≥ rnd (flSpaceSq rnd dim x y - eps))
  (test (tDelta ≥ 0) && isCausal, test (tDelta < 0) && isCausal)

/-- the distance along a periodic direction, spacetimes.py:318-320 and 332-335 -/
noncomputable def periodicDeltaFl (rnd : ℝ → ℝ) (period d : ℝ) : ℝ :=
  if period > 0 then min |rnd d| (rnd (period - |rnd d|)) else |rnd d|

/-- `isCausal_flat2Dperiodic`, spacetimes.py:315-325 -/
noncomputable def causalityFlat2DPeriodicFl (rnd : ℝ → ℝ) (eps : ℝ) (period : ℕ → ℝ) (x y : Point) : Bool × Bool :=
  let tDelta := rnd (y 0 - x 0)
  let rDelta := periodicDeltaFl rnd (period 0) (y 1 - x 1)
  let isCausal := test (|tDelta| ≥ rnd (|rDelta| - eps))
  (test (tDelta ≥ 0) && isCausal, test (tDelta < 0) && isCausal)

/-- `isCausal_flatperiodic`, spacetimes.py:327-341; `sq` is the `**2` of line 336 -/
noncomputable def causalityFlatPeriodicFl (rnd sq : ℝ → ℝ) (eps : ℝ) (dim : ℕ) (period : ℕ → ℝ) (x y : Point) : Bool × Bool :=
  let tDelta := rnd (y 0 - x 0)
  let r2Delta := flSum rnd ((List.range' 1 (dim - 1)).map fun i => sq (periodicDeltaFl rnd (period (i - 1)) (y i - x i)))
  let isCausal := test (rnd (tDelta ^ 2) ≥ rnd (r2Delta - eps))
  (test (tDelta ≥ 0) && isCausal, test (tDelta < 0) && isCausal)

/-- `FlatSpacetime.Causality`, spacetimes.py:289-341 -/
noncomputable def FlatSpacetime.causalityFl (rnd sq : ℝ → ℝ) (eps : ℝ) (M : FlatSpacetime) : Point → Point → Bool × Bool :=
  if M.dim = 1 then causalityBaseFl rnd
  else if !M.isPeriodic then
    if M.dim = 2 then causalityFlat2DFl rnd eps else causalityFlatFl rnd eps M.dim
  else
    let period : ℕ → ℝ := fun i => (M.period.getD []).getD i 0
    if M.dim = 2 then causalityFlat2DPeriodicFl rnd eps period else causalityFlatPeriodicFl rnd sq eps M.dim period

/-- the functions of the mathematical library used in spacetimes.py:546-564 and 641-654 (`sq` is `**2`) -/
structure MathLib where
  sqrt : ℝ → ℝ
  sinh : ℝ → ℝ
  cosh : ℝ → ℝ
  sin : ℝ → ℝ
  cos : ℝ → ℝ
  sq : ℝ → ℝ

/-- `isCausal_dS`, spacetimes.py:546-564; `alphaSq` is `_alpha_sq`, spacetimes.py:483 -/
noncomputable def causalityDSFl (rnd : ℝ → ℝ) (lib : MathLib) (eps : ℝ) (dim : ℕ) (alpha alphaSq : ℝ) (x y : Point) : Bool × Bool :=
  let r2x := flNormSq rnd dim x
  let r2y := flNormSq rnd dim y
  if test (r2x ≥ alphaSq) || test (r2y ≥ alphaSq) then (false, false)
  else
    let ampX := lib.sqrt (rnd (alphaSq - r2x))
    let ampY := lib.sqrt (rnd (alphaSq - r2y))
    let x0x := rnd (ampX * lib.sinh (rnd (x 0 / alpha)))
    let x1x := rnd (ampX * lib.cosh (rnd (x 0 / alpha)))
    let x0y := rnd (ampY * lib.sinh (rnd (y 0 / alpha)))
    let x1y := rnd (ampY * lib.cosh (rnd (y 0 / alpha)))
    let x0Delta := rnd (x0y - x0x)
    let isCausal := test (lib.sq x0Delta ≥ rnd (rnd (flSpaceSq rnd dim x y + lib.sq (rnd (x1y - x1x))) - eps))
    (test (x0Delta ≥ 0) && isCausal, test (x0Delta < 0) && isCausal)

/-- `isCausal_AdS`, spacetimes.py:641-654 -/
noncomputable def causalityAdSFl (rnd : ℝ → ℝ) (lib : MathLib) (eps : ℝ) (dim : ℕ) (alpha alphaSq : ℝ) (x y : Point) : Bool × Bool :=
  let ampX := lib.sqrt (rnd (alphaSq + flNormSq rnd dim x))
  let ampY := lib.sqrt (rnd (alphaSq + flNormSq rnd dim y))
  let x0x := rnd (ampX * lib.sin (rnd (x 0 / alpha)))
  let x1x := rnd (ampX * lib.cos (rnd (x 0 / alpha)))
  let x0y := rnd (ampY * lib.sin (rnd (y 0 / alpha)))
  let x1y := rnd (ampY * lib.cos (rnd (y 0 / alpha)))
  let x0Delta := rnd (x0y - x0x)
  let isCausal := test (rnd (lib.sq x0Delta + lib.sq (rnd (x1y - x1x))) ≥ rnd (flSpaceSq rnd dim x y - eps))
  (test (x0Delta ≥ 0) && isCausal, test (x0Delta < 0) && isCausal)

end Causets
