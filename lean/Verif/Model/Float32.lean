import Verif.Model.FloatCausality
import Verif.Model.Sprinkling

/-!
# Sprinkles in single precision (sprinkledcauset.py, spacetimes.py)

The coordinates of a sprinkle are stored as `float32` (sprinkledcauset.py:72).  The causality function of flat spacetime then computes differences and squares of `float32` numbers in
`float32`; the type of the sum and of the difference with the Python float `causality_eps` is `float64` with NumPy 1 (where `0 + np.float32(a)` and `np.float32(a) - 1e-12` are `float64`)
and `float32` with NumPy 2 (NEP 50, where the tolerance is also rounded to `float32`).  So there are two roundings, `rnd` of the operations with arrays of coordinates, and `rndS` of the
sum and the tolerance.  As in `Verif.Model.FloatCausality` there is no overflow and no `-0.0`.
-/

namespace Causets

/-- floating point numbers with `p` bits and least exponent `emin` (including subnormal numbers, without overflow) -/
def FloatNum (p : ℕ) (emin : ℤ) : Set ℝ := {z | ∃ m e : ℤ, |m| < 2 ^ p ∧ emin ≤ e ∧ z = m * (2 : ℝ) ^ e}

/-- the `float32` numbers -/
def Binary32 : Set ℝ := FloatNum 24 (-149)

/-- the exponent of the last bit of the numbers near `z` -/
noncomputable def lastBitOf (p : ℕ) (emin : ℤ) (z : ℝ) : ℤ := max emin (Int.log 2 |z| - (p - 1))

/-- rounding to nearest, ties to even (IEEE 754) -/
noncomputable def rndOf (p : ℕ) (emin : ℤ) (z : ℝ) : ℝ := roundEven (z / (2 : ℝ) ^ lastBitOf p emin z) * (2 : ℝ) ^ lastBitOf p emin z

/-- rounding to `float32` -/
noncomputable def rnd32 : ℝ → ℝ := rndOf 24 (-149)

/-- `isCausal_flat2D`, spacetimes.py:295-302, for arrays of the type that `rnd` rounds to -/
noncomputable def causalityFlat2DMix (rnd rndS : ℝ → ℝ) (eps : ℝ) (x y : Point) : Bool × Bool :=
  let tDelta := rnd (y 0 - x 0)
  let isCausal := test (|tDelta| ≥ rndS (|rnd (y 1 - x 1)| - eps))
  (test (tDelta ≥ 0) && isCausal, test (tDelta < 0) && isCausal)

/-- `isCausal_flat`, spacetimes.py:304-311, for arrays of the type that `rnd` rounds to -/
noncomputable def causalityFlatMix (rnd rndS : ℝ → ℝ) (eps : ℝ) (dim : ℕ) (x y : Point) : Bool × Bool :=
  let tDelta := rnd (y 0 - x 0)
  let space := flSum rndS ((List.range' 1 (dim - 1)).map fun i => rnd (rnd (y i - x i) ^ 2))
  let isCausal := test (rnd (tDelta ^ 2) ≥ rndS (space - eps))
  (test (tDelta ≥ 0) && isCausal, test (tDelta < 0) && isCausal)

/-- `FlatSpacetime.Causality`, spacetimes.py:289-311, without periods -/
noncomputable def causalityMinkMix (rnd rndS : ℝ → ℝ) (eps : ℝ) (dim : ℕ) : Point → Point → Bool × Bool :=
  if dim = 1 then causalityBaseFl rnd
  else if dim = 2 then causalityFlat2DMix rnd rndS eps
  else causalityFlatMix rnd rndS eps dim

/-- the assignment `coords[i, :] = rng.uniform(low, high)`, sprinkledcauset.py:72-84, of row `i` of a cube or cuboid: `low` and `high` are `float32` arrays (the centre is one,
shapes.py:83-87, the edges are, shapes.py:126-130, and the half of an edge is exact), the draw is stored as `float32`.  `draw i j` is the value of `rng.uniform` as a function of the
limits. -/
noncomputable def sprinkleCuboid32 (rnd : ℝ → ℝ) (draw : ℕ → ℕ → ℝ → ℝ → ℝ) (dim : ℕ) (S : CoordinateShape) (i : ℕ) : Point := fun j =>
  if j < dim then
    let e := if S.name = "cuboid" then (S.edges.getD []).getD j 0 else S.edge.getD 0
    rnd (draw i j (rnd (S.center.getD j 0 - e / 2)) (rnd (S.center.getD j 0 + e / 2)))
  else 0

/-- `sprinkle(count)`, sprinkledcauset.py:129-142, in a cube or cuboid, with coordinates stored by `rnd` and the causality function `c` -/
noncomputable def SprState.sprinkleBox32 (c : Point → Point → Bool × Bool) (it : Iter) (rnd : ℝ → ℝ) (draw : ℕ → ℕ → ℝ → ℝ → ℝ) (dim : ℕ) (S : CoordinateShape) (count : ℕ)
    (s : SprState) : Except Err (Finset EId) × SprState :=
  SprState.superCreate c it ((List.range count).map (sprinkleCuboid32 rnd draw dim S)) none true { s with intensity := s.intensity + count }

/-- `r = np.sqrt(sum(np.square(coord)))`, sprinkledcauset.py:113-114, of `float64` numbers (the square root of IEEE 754 is correctly rounded) -/
noncomputable def normalNorm64 (r64 : ℝ → ℝ) (bd : ℕ) (normal : ℕ → ℝ) : ℝ := r64 (Real.sqrt (flSum r64 ((List.range bd).map fun k => r64 (normal k ^ 2))))

/-- row `i` of the matrix of a ball or cylinder, sprinkledcauset.py:98-127: `scal i` is the value of `rng.uniform(low=r_low)**(1.0 / b_d)`, `normal i` the array
`rng.standard_normal(size=(b_d,))` and `time i` the value of `rng.uniform` as a function of the limits; all numbers are `float64`, the coordinates are stored as `float32`.  The limits of
the time, line 104-107, are rounded by `rS`: `float32` scalar minus Python float, `float64` with NumPy 1 and `float32` with NumPy 2. -/
noncomputable def sprinkleBall32 (r32 r64 rS : ℝ → ℝ) (scal : ℕ → ℝ) (normal : ℕ → ℕ → ℝ) (time : ℕ → ℝ → ℝ → ℝ) (dim : ℕ) (S : CoordinateShape) (i : ℕ) : Point :=
  let br := S.radius.getD 0
  let dstart := if S.name = "ball" then 0 else 1
  let r := normalNorm64 r64 (dim - dstart) (normal i)
  let f := r64 (r64 (scal i * br) / r)
  fun j =>
    if j < dstart then r32 (time i (rS (S.center.getD 0 0 - S.duration.getD 0 / 2)) (rS (S.center.getD 0 0 + S.duration.getD 0 / 2)))
    else if j < dim then r32 (r64 (S.center.getD j 0 + r64 (f * normal i (j - dstart))))
    else 0

end Causets
