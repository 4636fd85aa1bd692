import Verif.Model.Shapes

/-!
# Sprinkled causets (sprinkledcauset.py)

The random generator is modelled by arbitrary values in the documented ranges: `rng.uniform(low, high)` is `low + (high - low) * u` with any `0 ≤ u < 1`,
`rng.standard_normal` any real number, `rng.poisson` any natural number.  Nothing is said here about their distribution (see `RandomDraws` in Props/Uniform.lean for that).  Each draw is named by its source line and the indices of
the loop (two sprinkles are given different `Draws`).  Coordinates (numpy `float32`) are real numbers here (see `Verif.Model.Float32` for single precision).
-/

namespace Causets

/-- the values drawn from the random number generator -/
structure Draws where
  unif : List ℕ → ℝ
  normal : List ℕ → ℝ
  unif_mem : ∀ k, 0 ≤ unif k ∧ unif k < 1

/-- `rng.uniform(low, high)` -/
noncomputable def Draws.uniform (R : Draws) (k : List ℕ) (low high : ℝ) : ℝ := low + (high - low) * R.unif k

/-- row `i` of the matrix of a cube or cuboid, sprinkledcauset.py:72-84 -/
noncomputable def sprinkleCuboid (R : Draws) (dim : ℕ) (S : CoordinateShape) (i : ℕ) : Point := fun j =>
  if j < dim then
    let e := if S.name = "cuboid" then (S.edges.getD []).getD j 0 else S.edge.getD 0
    R.uniform [84, i, j] (S.center.getD j 0 - e / 2) (S.center.getD j 0 + e / 2)
  else 0

/-- `r = np.sqrt(sum(np.square(coord)))`, sprinkledcauset.py:113-114, with `coord = rng.standard_normal(size=(b_d,))` -/
noncomputable def normalNorm (R : Draws) (bd i : ℕ) : ℝ := Real.sqrt (∑ k ∈ Finset.range bd, R.normal [113, i, k] ^ 2)

/-- row `i` of the matrix of a ball or cylinder (or of a shape named 'diamond'), sprinkledcauset.py:98-127; `junk` is the row before (`np.empty`) -/
noncomputable def sprinkleBall (R : Draws) (junk : ℕ → Point) (dim : ℕ) (S : CoordinateShape) (i : ℕ) : Point :=
  let isCylindrical := S.name = "cylinder"
  let isDiamond := S.name = "diamond"
  let br := S.radius.getD 0
  let dstart := if S.name = "ball" then 0 else 1
  let bd := dim - dstart
  let rLow := (S.hollow.getD 0) ^ bd
  let r := normalNorm R bd i
  let rScaling := (R.uniform [116, i] rLow 1) ^ (1 / (bd : ℝ))
  let squeeze := (R.uniform [119, i] 0 1) ^ (1 / (dim : ℝ))
  let sign := SignType.sign (R.uniform [121, i] (-1) 1)
  let rScaling := if isDiamond then rScaling * squeeze else rScaling
  fun j =>
    if j < dstart then
      if isCylindrical then R.uniform [107, i] (S.center.getD 0 0 - S.duration.getD 0 / 2) (S.center.getD 0 0 + S.duration.getD 0 / 2)
      else if isDiamond then sign * (1 - squeeze) * br
      else junk i j
    else if j < dim then S.center.getD j 0 + (rScaling * br / r) * R.normal [113, i, j - dstart]
    else 0

/-- `_sprinkle_coords`, sprinkledcauset.py:67-127, for a shape of the dimension of the causet.  `junk` is the content of the memory allocated by `np.empty`; `1.0 / b_d` raises
ZeroDivisionError if `b_d = 0` (and there is a row).  `'cylinder' in shape.Name` and `'diamond' in shape.Name` are equalities here because the name is one of
'ball', 'cylinder', 'diamond'.  If all normal draws of a row are 0 the code divides by zero and stores NaN; the model then stores the centre. -/
noncomputable def sprinkleCoords (R : Draws) (junk : ℕ → Point) (dim : ℕ) (count : ℤ) (S : CoordinateShape) : Except Err (List Point) :=
  if count < 0 then .error .valueError
  else
    let n := count.toNat
    if S.name = "cube" ∨ S.name = "cuboid" then .ok ((List.range n).map (sprinkleCuboid R dim S))
    else if S.name = "ball" ∨ S.name = "cylinder" ∨ S.name = "diamond" then
      if dim = 2 ∧ S.name = "diamond" then
        .ok ((List.range n).map (fun i => point2 ((R.uniform [94, i, 0] (-1) 1 + R.uniform [94, i, 1] (-1) 1) * (S.radius.getD 0 / 2))
          ((R.uniform [94, i, 0] (-1) 1 - R.uniform [94, i, 1] (-1) 1) * (S.radius.getD 0 / 2))))
      else if dim - (if S.name = "ball" then 0 else 1) = 0 ∧ n ≠ 0 then .error .zeroDivisionError
      else .ok ((List.range n).map (sprinkleBall R junk dim S))
    else .ok ((List.range n).map junk)

/-- a `SprinkledCauset` object (`_events`, `_intensity`; `Intensity`, sprinkledcauset.py:51-57, is the second field) together with all event objects of the program -/
structure SprState where
  events : Finset EId
  intensity : ℝ
  world : World Point

namespace SprState
variable (c : Point → Point → Bool × Bool) (it : Iter)

/-- `EmbeddedCauset.create` on the object -/
noncomputable def superCreate (coords : List Point) (fmt : Option (ℕ → String)) (doRelate : Bool) (s : SprState) : Except Err (Finset EId) × SprState :=
  let r := Causets.create c it s.events coords fmt doRelate s.world
  let s' : SprState := { events := r.1, intensity := s.intensity, world := r.2.2.2 }
  match r.2.2.1 with
  | .error x => (.error x, s')
  | .ok _ => (.ok r.2.1, s')

/-- `sprinkle`, sprinkledcauset.py:129-142 -/
noncomputable def sprinkle (R : Draws) (junk : ℕ → Point) (dim : ℕ) (S : CoordinateShape) (count : ℤ) (s : SprState) : Except Err (Finset EId) × SprState :=
  if count < 0 then (.error .valueError, s)
  else
    let s1 := { s with intensity := s.intensity + count }
    match sprinkleCoords R junk dim count S with
    | .error x => (.error x, s1)
    | .ok rows => superCreate c it rows none true s1

/-- `intensify`, sprinkledcauset.py:144-159; `k` is the value drawn by `rng.poisson` -/
noncomputable def intensify (R : Draws) (junk : ℕ → Point) (dim : ℕ) (S : CoordinateShape) (lam : ℝ) (k : ℕ) (s : SprState) :
    Except Err (Finset EId) × SprState :=
  if test (lam < 0) then (.error .valueError, s)
  else
    let s1 := { s with intensity := s.intensity + lam }
    match sprinkleCoords R junk dim k S with
    | .error x => (.error x, s1)
    | .ok rows => superCreate c it rows none true s1

/-- `create`, sprinkledcauset.py:161-170 -/
noncomputable def create (coords : List Point) (fmt : Option (ℕ → String)) (doRelate : Bool) (s : SprState) : Except Err (Finset EId) × SprState :=
  let r := superCreate c it coords fmt doRelate s
  match r.1 with
  | .error x => (.error x, r.2)
  | .ok es => (.ok es, { r.2 with intensity := r.2.intensity + ((r.2.events.card : ℝ) - s.events.card) })

/-- `add`, sprinkledcauset.py:172-175 -/
noncomputable def add (es : Finset EId) (unlink : Bool) (s : SprState) : Except Err Unit × SprState :=
  let r := causetAdd it s.events es unlink s.world.heap
  let s' : SprState := { events := r.1, intensity := s.intensity, world := { s.world with heap := r.2.2 } }
  match r.2.1 with
  | .error x => (.error x, s')
  | .ok _ => (.ok (), { s' with intensity := s'.intensity + ((s'.events.card : ℝ) - s.events.card) })

/-- `discard`, sprinkledcauset.py:177-180 (Python float division: ZeroDivisionError) -/
noncomputable def discard (es : Finset EId) (unlink : Bool) (s : SprState) : Except Err Unit × SprState :=
  let r := causetDiscard it s.events es unlink s.world.heap
  let s' : SprState := { events := r.1, intensity := s.intensity, world := { s.world with heap := r.2.2 } }
  match r.2.1 with
  | .error x => (.error x, s')
  | .ok _ => if s.events.card = 0 then (.error .zeroDivisionError, s')
    else (.ok (), { s' with intensity := s'.intensity * ((s'.events.card : ℝ) / s.events.card) })

/-- `__init__`, sprinkledcauset.py:25-48, after the initialisation of the super class (which chooses the shape `S` and creates no events); `w` is the
state of the program before, `k` the number drawn by `rng.poisson` (if `card ≤ 0`) -/
noncomputable def init (R : Draws) (junk : ℕ → Point) (dim : ℕ) (S : CoordinateShape) (card : ℤ) (lam : ℝ) (k : ℕ) (w : World Point) :
    Except Err (Finset EId) × SprState :=
  let s : SprState := { events := ∅, intensity := 0, world := w }
  if 0 < card then sprinkle c it R junk dim S card s else intensify c it R junk dim S lam k s

/-- `Density`, sprinkledcauset.py:59-61 (the volume is positive) -/
noncomputable def density (S : CoordinateShape) (s : SprState) : ℝ := s.intensity / S.volume

/-- `LengthScale`, sprinkledcauset.py:63-65 -/
noncomputable def lengthScale (S : CoordinateShape) (s : SprState) : ℝ := (S.volume / s.intensity) ^ (1 / (S.dim : ℝ))

end SprState

/-- `EmbeddedCauset.Density`, embeddedcauset.py:173-179 -/
noncomputable def embDensity (S : CoordinateShape) (C : Finset EId) : ℝ := (C.card : ℝ) / S.volume

/-- `EmbeddedCauset.LengthScale`, embeddedcauset.py:181-187 -/
noncomputable def embLengthScale (S : CoordinateShape) (C : Finset EId) : ℝ := if C.card = 0 then 0 else embDensity S C ^ (1 / (S.dim : ℝ))

end Causets
