import Verif.Model.Spacetimes
import Mathlib.NumberTheory.Harmonic.EulerMascheroni
import Mathlib.Data.EReal.Basic
import Mathlib.Data.EReal.Operations

/-!
# calculations.py: harmonic numbers and Newton's method

Python floats are modelled by real numbers (rounding is not modelled; `np.euler_gamma` is the Euler–Mascheroni constant), numpy's `int64`
arithmetic by integers reduced modulo `2^64` to the range from `-2^63` to `2^63 - 1`, and a float that may be infinite by `EReal`.
-/

namespace Causets

/-- the asymptotic expansion in `HarmonicNumber`, calculations.py:24-27 -/
noncomputable def harmonicExpansion (n : ℝ) : ℝ :=
  let h := Real.log n + Real.eulerMascheroniConstant
  let h := h + 0.5 / n
  let h := h - 0.25 / 3 / n ^ 2
  h + 0.025 / 3 / n ^ 4

/-- `HarmonicNumber`, calculations.py:14-28 (`math.log` raises ValueError for numbers that are not positive) -/
noncomputable def harmonicNumber (n approximate : ℤ) : Except Err ℝ :=
  if n < approximate then .ok (((List.range n.toNat).reverse.map (fun (i : ℕ) => (1 : ℝ) / ((i : ℝ) + 1))).sum)
  else if n ≤ 0 then .error .valueError
  else .ok (harmonicExpansion n)

/-- the first loop of `HarmonicNumbers`, calculations.py:40-42: `m` more rounds, from round `k` on -/
noncomputable def harmonicLoop : ℕ → ℕ → ℝ → List ℝ
  | 0, _, _ => []
  | m + 1, k, total => total :: harmonicLoop m (k + 1) (total + 1 / ((k : ℝ) + 1))

/-- a value of numpy's type `int64` -/
def wrap64 (z : ℤ) : ℤ := z.bmod (2 ^ 64)

/-- numpy's division of a positive float by an `int64` (with a warning suppressed by `np.errstate`, the quotient by 0 is infinite) -/
noncomputable def npDiv (a : ℝ) (z : ℤ) : EReal := if z = 0 then ⊤ else ((a / (z : ℝ) : ℝ) : EReal)

/-- an entry computed in calculations.py:44-48 (for `k ≥ 1`; a NaN would be modelled by `⊥`) -/
noncomputable def harmonicEntry (k : ℕ) : EReal :=
  let h : EReal := ((Real.log k + Real.eulerMascheroniConstant : ℝ) : EReal)
  let h := h + npDiv 0.5 k
  let h := h - npDiv (0.25 / 3) (wrap64 ((k : ℤ) * k))
  h + npDiv (0.025 / 3) (wrap64 (wrap64 ((k : ℤ) * k) * wrap64 ((k : ℤ) * k)))

/-- `HarmonicNumbers`, calculations.py:31-49 (for `n ≥ 0` and `approximate ≥ 0`; `n < 2^63`) -/
noncomputable def harmonicNumbers (n approximate : ℕ) : List EReal :=
  (harmonicLoop (min (n + 1) approximate) 0 0).map Real.toEReal ++
    (List.range (n + 1 - approximate)).map (fun i => harmonicEntry (approximate + i))

/-- `HarmonicNumberFraction`, calculations.py:52-59 -/
def harmonicNumberFraction (n : ℤ) : ℚ :=
  if n = 0 then 0 else ((List.range n.toNat).map (fun (i : ℕ) => (1 : ℚ) / ((i : ℚ) + 1))).sum

/-- the loop of `HarmonicNumberFractions`, calculations.py:69-71: `m` more rounds, from round `k` on -/
def fractionLoop : ℕ → ℕ → ℚ → List ℚ → List ℚ
  | 0, _, _, H => H
  | m + 1, k, total, H => fractionLoop m (k + 1) (total + 1 / ((k : ℚ) + 1)) (H.set k total)

/-- `HarmonicNumberFractions`, calculations.py:62-72 -/
def harmonicNumberFractions (n : ℤ) : List ℚ :=
  fractionLoop (n + 1).toNat 0 0 (List.replicate (n + 1).toNat 0)

/-- the restriction to the interval in `NewtonsMethod`, calculations.py:93-96 (`none` is the infinite default) -/
noncomputable def newtonClamp (xmin xmax : Option ℝ) (precission x : ℝ) : ℝ :=
  match xmin, xmax with
  | some lo, some hi => if test (x < lo) then lo + precission else if test (x > hi) then hi - precission else x
  | some lo, none => if test (x < lo) then lo + precission else x
  | none, some hi => if test (x > hi) then hi - precission else x
  | none, none => x

/-- the loop of `NewtonsMethod`, calculations.py:88-100, with the remaining number of rounds -/
noncomputable def newtonLoop (f fprime : ℝ → ℝ) (y : ℝ) (xmin xmax : Option ℝ) (default precission : ℝ) : ℕ → ℝ → ℝ
  | 0, _ => default
  | m + 1, x =>
    if test (fprime x = 0) then default
    else
      let next := newtonClamp xmin xmax precission (x - (f x - y) / fprime x)
      if test (|x - next| < precission) then next
      else newtonLoop f fprime y xmin xmax default precission m next

/-- `NewtonsMethod`, calculations.py:75-101 -/
noncomputable def newtonsMethod (f fprime : ℝ → ℝ) (x0 y : ℝ) (xmin xmax : Option ℝ) (default precission : ℝ) (maxIterations : ℤ) : ℝ :=
  newtonLoop f fprime y xmin xmax default precission maxIterations.toNat x0

end Causets
