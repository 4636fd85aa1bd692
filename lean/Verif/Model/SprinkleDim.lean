import Verif.Model.Sprinkling

/-!
# Sprinkling into a region of any dimension (sprinkledcauset.py)

The optional argument `shape` of `sprinkle` and `intensify` can have another dimension than the causet.  `Verif.Model.Sprinkling` models `_sprinkle_coords` for a shape of the same dimension; here
the operations with arrays are modelled with their lengths (NumPy's broadcasting).
-/

namespace Causets

/-- NumPy: an elementwise operation of two one-dimensional arrays -/
def npBroadcast (op : ℝ → ℝ → ℝ) (a b : List ℝ) : Except Err (List ℝ) :=
  if a.length = b.length then .ok (List.zipWith op a b)
  else if a.length = 1 then .ok (b.map fun v => op (a.getD 0 0) v)
  else if b.length = 1 then .ok (a.map fun v => op v (b.getD 0 0))
  else .error .valueError

/-- NumPy: assignment of a one-dimensional array to `n` entries of a row -/
def npAssign (n : ℕ) (v : List ℝ) : Except Err (List ℝ) :=
  if v.length = n then .ok v
  else if v.length = 1 then .ok (List.replicate n (v.getD 0 0))
  else .error .valueError

/-- `low` or `high` of a cube or cuboid of any dimension, sprinkledcauset.py:76-82; `op` is the difference or the sum -/
noncomputable def cuboidBound (op : ℝ → ℝ → ℝ) (S : CoordinateShape) : Except Err (List ℝ) :=
  if S.name = "cuboid" then npBroadcast op S.center ((S.edges.getD []).map fun e => e / 2) else .ok (S.center.map fun c => op c (S.edge.getD 0 / 2))

/-- row `i` of a cube or cuboid of any dimension, sprinkledcauset.py:72-84; `rng.uniform(low, high)` draws a number for each pair of entries -/
noncomputable def cuboidRow (R : Draws) (dim : ℕ) (S : CoordinateShape) (i : ℕ) : Except Err Point := do
  let low ← cuboidBound (fun c e => c - e) S
  let high ← cuboidBound (fun c e => c + e) S
  let draws := (List.range low.length).map fun j => R.uniform [84, i, j] (low.getD j 0) (high.getD j 0)
  let row ← npAssign dim draws
  .ok fun j => row.getD j 0

/-- row `i` of a ball or cylinder (or of a shape named 'diamond') of any dimension, sprinkledcauset.py:98-127 -/
noncomputable def ballRow (R : Draws) (junk : ℕ → Point) (dim : ℕ) (S : CoordinateShape) (i : ℕ) : Except Err Point := do
  let isCylindrical := S.name = "cylinder"
  let isDiamond := S.name = "diamond"
  let br := S.radius.getD 0
  let dstart := if S.name = "ball" then 0 else 1
  let bd := dim - dstart
  let coord := (List.range bd).map fun k => R.normal [113, i, k]
  let r := Real.sqrt ((coord.map fun z => z ^ 2).sum)
  if bd = 0 then .error .zeroDivisionError
  else
    let rScaling := (R.uniform [116, i] ((S.hollow.getD 0) ^ bd) 1) ^ (1 / (bd : ℝ))
    let squeeze := (R.uniform [119, i] 0 1) ^ (1 / (dim : ℝ))
    let sign := SignType.sign (R.uniform [121, i] (-1) 1)
    let rScaling := if isDiamond then rScaling * squeeze else rScaling
    let sum ← npBroadcast (fun c v => c + v) (S.center.drop dstart) (coord.map fun z => (rScaling * br / r) * z)
    let space ← npAssign bd sum
    .ok fun j =>
      if j < dstart then
        if isCylindrical then R.uniform [107, i] (S.center.getD 0 0 - S.duration.getD 0 / 2) (S.center.getD 0 0 + S.duration.getD 0 / 2)
        else if isDiamond then sign * (1 - squeeze) * br
        else junk i j
      else space.getD (j - dstart) 0

/-- the rows of a loop; the first exception ends it -/
def rowsOf (f : ℕ → Except Err Point) : List ℕ → Except Err (List Point)
  | [] => .ok []
  | i :: l => do
    let x ← f i
    let xs ← rowsOf f l
    .ok (x :: xs)

/-- `_sprinkle_coords`, sprinkledcauset.py:67-127, for a shape of any dimension -/
noncomputable def sprinkleCoordsAny (R : Draws) (junk : ℕ → Point) (dim : ℕ) (count : ℤ) (S : CoordinateShape) : Except Err (List Point) :=
  if count < 0 then .error .valueError
  else
    let n := count.toNat
    if S.name = "cube" ∨ S.name = "cuboid" then rowsOf (cuboidRow R dim S) (List.range n)
    else if S.name = "ball" ∨ S.name = "cylinder" ∨ S.name = "diamond" then
      if dim = 2 ∧ S.name = "diamond" then
        .ok ((List.range n).map (fun i => point2 ((R.uniform [94, i, 0] (-1) 1 + R.uniform [94, i, 1] (-1) 1) * (S.radius.getD 0 / 2))
          ((R.uniform [94, i, 0] (-1) 1 - R.uniform [94, i, 1] (-1) 1) * (S.radius.getD 0 / 2))))
      else rowsOf (ballRow R junk dim S) (List.range n)
    else .ok ((List.range n).map junk)

namespace SprState
variable (c : Point → Point → Bool × Bool) (it : Iter)

/-- `sprinkle(count, rng, shape)`, sprinkledcauset.py:129-142, on a causet of dimension `dim` -/
noncomputable def sprinkleInto (R : Draws) (junk : ℕ → Point) (dim : ℕ) (S : CoordinateShape) (count : ℤ) (s : SprState) : Except Err (Finset EId) × SprState :=
  if count < 0 then (.error .valueError, s)
  else
    let s1 := { s with intensity := s.intensity + count }
    match sprinkleCoordsAny R junk dim count S with
    | .error x => (.error x, s1)
    | .ok rows => superCreate c it rows none true s1

/-- `intensify(intensity, rng, shape)`, sprinkledcauset.py:144-159, on a causet of dimension `dim`; `k` is the value drawn by `rng.poisson` -/
noncomputable def intensifyInto (R : Draws) (junk : ℕ → Point) (dim : ℕ) (S : CoordinateShape) (lam : ℝ) (k : ℕ) (s : SprState) :
    Except Err (Finset EId) × SprState :=
  if test (lam < 0) then (.error .valueError, s)
  else
    let s1 := { s with intensity := s.intensity + lam }
    match sprinkleCoordsAny R junk dim k S with
    | .error x => (.error x, s1)
    | .ok rows => superCreate c it rows none true s1

end SprState

end Causets
