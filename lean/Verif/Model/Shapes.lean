import Verif.Model.EmbPermutation
import Mathlib.Analysis.SpecialFunctions.Gamma.Basic

/-!
# `CoordinateShape` (shapes.py)

Floats (the parameters are converted to `float32`) are modelled by real numbers; conversion and rounding errors are not modelled.  Keyword
arguments with other keys are ignored by the code.  Values that are not numbers (or not lists of numbers for `center`, `edges`) are not modelled.
Of `plot` the geometry passed to matplotlib is modelled (`plot2`, `plot3`).
-/

namespace Causets

/-- the keyword arguments of `CoordinateShape.__init__` (`none`: not given) -/
structure ShapeArgs where
  center : Option (List ℝ) := none
  radius : Option ℝ := none
  hollow : Option ℝ := none
  duration : Option ℝ := none
  edge : Option ℝ := none
  edges : Option (List ℝ) := none

/-- a `CoordinateShape` object: `_dim`, `_name`, `_center` and the dictionary `_params` (`none`: no such key), shapes.py:25-29 -/
structure CoordinateShape where
  dim : ℕ
  name : String
  center : List ℝ
  radius : Option ℝ := none
  hollow : Option ℝ := none
  duration : Option ℝ := none
  edge : Option ℝ := none
  edges : Option (List ℝ) := none

/-- `param_rangecheck`, shapes.py:92-107: true if it raises (`maxValue = none` is the default NaN) -/
noncomputable def rangeFails (v : ℝ) (maxValue : Option ℝ) (canBeZero : Bool) : Bool :=
  let isTooLow := (canBeZero && test (v < 0)) || (!canBeZero && test (v ≤ 0))
  match maxValue with
  | none => isTooLow
  | some m => isTooLow || test (v ≥ m)

namespace CoordinateShape

/-- `__init__`, shapes.py:31-136 -/
noncomputable def init (dim : ℤ) (name : String) (kw : ShapeArgs) : Except Err CoordinateShape :=
  if dim < 1 then .error .valueError
  else if name ≠ "diamond" ∧ name ∉ ["ball", "bicone", "cylinder", "cube", "cuboid"] then .error .valueError
  else
    let name := if name = "diamond" then "bicone" else name
    let d := dim.toNat
    let center := kw.center.getD (List.replicate d 0)
    if center.length ≠ d then .error .valueError
    else if name = "ball" ∨ name = "bicone" ∨ name = "cylinder" then
      let radius := kw.radius.getD 1
      let hollow := kw.hollow.getD 0
      if rangeFails radius none false then .error .valueError
      else if rangeFails hollow (some 1) true then .error .valueError
      else if name = "cylinder" then
        let duration := kw.duration.getD (2 * radius)
        if rangeFails duration none false then .error .valueError
        else .ok { dim := d, name, center, radius := some radius, hollow := some hollow, duration := some duration }
      else .ok { dim := d, name, center, radius := some radius, hollow := some hollow }
    else if name = "cube" then
      let edge := kw.edge.getD 1
      if rangeFails edge none false then .error .valueError
      else .ok { dim := d, name, center, edge := some edge }
    else
      let edges := kw.edges.getD (List.replicate d 1)
      if edges.length ≠ d then .error .valueError
      else if edges.any (fun x => test (x ≤ 0)) then .error .valueError
      else .ok { dim := d, name, center, edges := some edges }

variable (S : CoordinateShape)

/-- a value of the dictionary `_params` -/
inductive ParamValue
  | num (x : ℝ)
  | list (l : List ℝ)

/-- `Parameter(key)`, shapes.py:171-175 (`Dim`, `Name`, `Center`, shapes.py:150-169, are the fields of the object) -/
def parameter (key : String) : Except Err ParamValue :=
  let get (o : Option ParamValue) : Except Err ParamValue := match o with
    | some v => .ok v
    | none => .error .keyError
  if key = "radius" then get (S.radius.map .num)
  else if key = "hollow" then get (S.hollow.map .num)
  else if key = "duration" then get (S.duration.map .num)
  else if key = "edge" then get (S.edge.map .num)
  else if key = "edges" then get (S.edges.map .list)
  else .error .keyError

/-- `__str__`, shapes.py:138-143 -/
noncomputable def str : String := match S.hollow with
  | some h => if test (h > 0) then s!"hollow {S.dim}-{S.name}" else s!"{S.dim}-{S.name}"
  | none => s!"{S.dim}-{S.name}"

/-- `__repr__`, shapes.py:145-148: there is no attribute `_class__`, so that formatting the string raises AttributeError for every object (of type `S`) -/
def repr (_ : CoordinateShape) : Except Err String := .error .attributeError

/-- the value computed by `Volume`, shapes.py:177-213 (the memory `_volume` of the value: `ShapeObj.readVolume`; keys that exist by construction are
read with a default) -/
noncomputable def volume : ℝ :=
  let d : ℝ := S.dim
  let r := S.radius.getD 0
  let hollow := S.hollow.getD 0
  let isHollow := test (hollow > 0)
  if S.name = "ball" then
    let V := r ^ S.dim
    let V := if isHollow then V - (hollow * r) ^ S.dim else V
    V * (Real.pi ^ (d / 2) / Real.Gamma (d / 2 + 1))
  else if S.name = "cylinder" then
    let V := r ^ (S.dim - 1)
    let V := if isHollow then V - (hollow * r) ^ (S.dim - 1) else V
    let V := V * (Real.pi ^ (d / 2 - 0.5) / Real.Gamma (d / 2 + 0.5))
    V * S.duration.getD 0
  else if S.name = "bicone" then
    let V := r ^ S.dim
    let V := if isHollow then V - (hollow * r) ^ S.dim else V
    let V := V * (Real.pi ^ (d / 2 - 0.5) / Real.Gamma (d / 2 + 0.5))
    V * (2 / d)
  else if S.name = "cube" then (S.edge.getD 0) ^ S.dim
  else if S.name = "cuboid" then (S.edges.getD []).prod
  else 0

/-- `max` of a list (ValueError if it is empty), shapes.py:230 -/
noncomputable def pyMax : List ℝ → Except Err ℝ
  | [] => .error .valueError
  | x :: xs => .ok (xs.foldl max x)

/-- `self._params['edges'][dims]` with a list of integers, shapes.py:230 -/
noncomputable def npTake (edges : List ℝ) : List ℤ → Except Err (List ℝ)
  | [] => .ok []
  | i :: is => match npIndex edges.length i with
    | .error x => .error x
    | .ok j => match npTake edges is with
      | .error x => .error x
      | .ok t => .ok (edges.getD j 0 :: t)

/-- `MaxEdgeHalf`, shapes.py:215-230 -/
noncomputable def maxEdgeHalf (dims : List ℤ) : Except Err ℝ :=
  if S.name = "cube" then .ok (S.edge.getD 0 / 2)
  else if S.name = "bicone" ∨ S.name = "ball" then .ok (S.radius.getD 0)
  else if S.name = "cylinder" then
    if dims.count 0 > 0 then .ok (max (S.radius.getD 0) (S.duration.getD 0 / 2)) else .ok (S.radius.getD 0)
  else match npTake (S.edges.getD []) dims with
    | .error x => .error x
    | .ok t => match pyMax t with
      | .error x => .error x
      | .ok m => .ok (m / 2)

/-- `Limits`, shapes.py:232-249 -/
noncomputable def limits (dim : ℤ) : Except Err (ℝ × ℝ) :=
  if dim < 0 ∨ dim ≥ S.dim then .error .valueError
  else
    let l := if dim = 0 ∧ S.name = "cylinder" then S.duration.getD 0 / 2
      else if S.name = "cube" then S.edge.getD 0 / 2
      else if S.name = "cuboid" then (S.edges.getD []).getD dim.toNat 0 / 2
      else S.radius.getD 0
    let shift := S.center.getD dim.toNat 0
    .ok (-l + shift, l + shift)

end CoordinateShape

/-! ## Edge polygons (shapes.py:370-472): lists of rows, `none` is the row of NaN that separates two polygons -/

/-- `RectangleEdge`, shapes.py:370-379 -/
noncomputable def rectangleEdge (left bottom width height : ℝ) : List (Option (ℝ × ℝ)) :=
  [some (left, bottom), some (left + width, bottom), some (left + width, bottom + height), some (left, bottom + height), some (left, bottom)]

/-- entry `k` of `np.linspace(0.0, 2.0 * np.pi, n)`, shapes.py:395, 420, 526, 551, 580 -/
noncomputable def linspace2pi (n k : ℕ) : ℝ := k * (2 * Real.pi / (n - 1))

/-- `if samplingsize <= 0: samplingsize = default_samplingsize` and `samplingsize + 1`, shapes.py:390-392 (default: shapes.py:17) -/
def samplingRows (samplingsize : ℤ) : ℕ := (if samplingsize ≤ 0 then 128 else samplingsize.toNat) + 1

/-- `EllipseEdge`, shapes.py:407-429; `junk` is the content of the memory of `np.empty` -/
noncomputable def ellipseEdge (junk : ℕ → Option (ℝ × ℝ)) (center radii : ℝ × ℝ) (hollow : ℝ) (samplingsize : ℤ) : List (Option (ℝ × ℝ)) :=
  let n := samplingRows samplingsize
  let ring := (List.range n).map (fun k =>
    some (center.1 + radii.1 * Real.cos (linspace2pi n k), center.2 + radii.2 * Real.sin (linspace2pi n k)))
  if test (hollow = 0) then ring
  else if test (hollow > 0) then
    ring ++ [none] ++ (List.range n).map (fun k =>
      some (center.1 + hollow * radii.1 * Real.cos (-linspace2pi n k), center.2 + hollow * radii.2 * Real.sin (-linspace2pi n k)))
  else ring ++ (List.range (n + 1)).map junk

/-- `CircleEdge`, shapes.py:382-404 -/
noncomputable def circleEdge (junk : ℕ → Option (ℝ × ℝ)) (center : ℝ × ℝ) (radius hollow : ℝ) (samplingsize : ℤ) : List (Option (ℝ × ℝ)) :=
  let n := samplingRows samplingsize
  let ring := (List.range n).map (fun k =>
    some (center.1 + radius * Real.cos (linspace2pi n k), center.2 + radius * Real.sin (linspace2pi n k)))
  if test (hollow = 0) then ring
  else if test (hollow > 0) then
    ring ++ [none] ++ (List.range n).map (fun k =>
      some (center.1 + hollow * radius * Real.cos (-linspace2pi n k), center.2 + hollow * radius * Real.sin (-linspace2pi n k)))
  else ring ++ (List.range (n + 1)).map junk

/-- `BiconeEdge`, shapes.py:432-452 -/
noncomputable def biconeEdge (center : ℝ × ℝ) (radius hollow : ℝ) : List (Option (ℝ × ℝ)) :=
  let edge := [some (center.1, center.2 + radius), some (center.1 - radius, center.2), some (center.1, center.2 - radius),
    some (center.1 + radius, center.2), some (center.1, center.2 + radius)]
  if test (hollow > 0) then
    let radius := hollow * radius
    edge ++ [none] ++ [some (center.1 + radius, center.2), some (center.1, center.2 - radius), some (center.1 - radius, center.2),
      some (center.1, center.2 + radius), some (center.1 + radius, center.2)]
  else edge

/-- `CylinderCutEdge`, shapes.py:455-472 -/
noncomputable def cylinderCutEdge (center : ℝ × ℝ) (radius height hollow : ℝ) : List (Option (ℝ × ℝ)) :=
  let heightHalf := height / 2
  if test (hollow = 0) then rectangleEdge (center.1 - radius) (center.2 - heightHalf) (2 * radius) height
  else rectangleEdge (center.1 - radius) (center.2 - heightHalf) ((1 - hollow) * radius) height ++ [none] ++
    rectangleEdge (center.1 + hollow * radius) (center.2 - heightHalf) ((1 - hollow) * radius) height

/-! ## Surfaces (shapes.py:475-594)

A surface patch is given by its number of rows and columns and the coordinate matrices `X`, `Y`, `Z` (after numpy's broadcasting of rows,
columns and single values to the common size). -/

structure Patch where
  rows : ℕ
  cols : ℕ
  pos : ℕ → ℕ → ℝ × ℝ × ℝ

/-- `CuboidSurface`, shapes.py:475-504: six patches; `[0, 0, e, e]` and `[0, e, e, 0]` are the two index patterns used -/
noncomputable def cuboidSurface (center edges : ℝ × ℝ × ℝ) : List Patch :=
  let a (e : ℝ) (k : ℕ) : ℝ := ([0, 0, e, e] : List ℝ).getD k 0
  let b (e : ℝ) (k : ℕ) : ℝ := ([0, e, e, 0] : List ℝ).getD k 0
  let xed := edges.1
  let yed := edges.2.1
  let zed := edges.2.2
  let c0 := center.1 - xed / 2
  let c1 := center.2.1 - yed / 2
  let c2 := center.2.2 - zed / 2
  [⟨4, 4, fun i j => (0 + c0, a yed j + c1, b zed i + c2)⟩,
   ⟨4, 4, fun i j => (b xed i + c0, 0 + c1, a zed j + c2)⟩,
   ⟨4, 4, fun i j => (a xed j + c0, b yed i + c1, 0 + c2)⟩,
   ⟨4, 4, fun i j => (xed + c0, b yed j + c1, a zed i + c2)⟩,
   ⟨4, 4, fun i j => (a xed i + c0, yed + c1, b zed j + c2)⟩,
   ⟨4, 4, fun i j => (b xed j + c0, a yed i + c1, zed + c2)⟩]

/-- `CubeSurface`, shapes.py:507-513 -/
noncomputable def cubeSurface (center : ℝ × ℝ × ℝ) (edge : ℝ) : List Patch := cuboidSurface center (edge, edge, edge)

/-- Python's `round(n / 2)` for an integer `n ≥ 0`: to the nearest integer, ties to the even one, shapes.py:527 -/
def roundHalf (n : ℕ) : ℕ := if n % 2 = 0 then n / 2 else if n / 2 % 2 = 0 then n / 2 else n / 2 + 1

/-- entry `k` of `np.linspace(0.0, np.pi, n)`, shapes.py:527 (a single entry is 0) -/
noncomputable def linspacePi (n k : ℕ) : ℝ := if n = 1 then 0 else k * (Real.pi / (n - 1))

/-- `BallSurface`, shapes.py:516-531 -/
noncomputable def ballSurface (center : ℝ × ℝ × ℝ) (radius : ℝ) (samplingsize : ℤ) : Patch :=
  let n := samplingRows samplingsize
  let m := roundHalf n
  ⟨n, m, fun i j => (Real.cos (linspace2pi n i) * Real.sin (linspacePi m j) * radius + center.1,
    Real.sin (linspace2pi n i) * Real.sin (linspacePi m j) * radius + center.2.1,
    1 * Real.cos (linspacePi m j) * radius + center.2.2)⟩

/-- the rotation at the end of `CylinderSurface` and `OpenConeSurface`, shapes.py:561-566, 588-593 -/
def rotateAxis (zaxis : ℤ) (p : ℝ × ℝ × ℝ) : ℝ × ℝ × ℝ :=
  if zaxis = 0 then (p.2.2, p.1, p.2.1) else if zaxis = 1 then (p.2.1, p.2.2, p.1) else p

/-- `CylinderSurface`, shapes.py:534-566 -/
noncomputable def cylinderSurface (center : ℝ × ℝ × ℝ) (radius height hollow : ℝ) (zaxis : ℤ) (samplingsize : ℤ) : Patch :=
  let n := samplingRows samplingsize
  let radii : List ℝ := if test (hollow = 0) then [0, 1, 1, 0] else [hollow, 1, 1, hollow, hollow]
  let relZ : List ℝ := if test (hollow = 0) then [-1, -1, 1, 1] else [-1, -1, 1, 1, -1]
  ⟨radii.length, n, fun i j => rotateAxis zaxis (radius * radii.getD i 0 * Real.cos (linspace2pi n j) + center.1,
    radius * radii.getD i 0 * Real.sin (linspace2pi n j) + center.2.1,
    height / 2 * relZ.getD i 0 + center.2.2)⟩

/-- `OpenConeSurface`, shapes.py:569-594 -/
noncomputable def openConeSurface (tip : ℝ × ℝ × ℝ) (radius height : ℝ) (zaxis : ℤ) (samplingsize : ℤ) : Patch :=
  let n := samplingRows samplingsize
  ⟨2, n, fun i j => rotateAxis zaxis (radius * ([0, 1] : List ℝ).getD i 0 * Real.cos (linspace2pi n j) + tip.1,
    radius * ([0, 1] : List ℝ).getD i 0 * Real.sin (linspace2pi n j) + tip.2.1,
    ([0, 1] : List ℝ).getD i 0 * height + tip.2.2)⟩

/-! ## `CoordinateShape.plot` (shapes.py:251-367)

Only the geometry handed to matplotlib (returned by `plot` for three dimensions) is modelled, for a list `dims` of two or three valid dimensions (natural numbers below
`Dim`). -/

/-- the patches created for a plot in two dimensions: `patches.Rectangle` (corner, width, height), `patches.Circle`, `patches.Polygon` -/
inductive Patch2 where
  | rectangle (corner : ℝ × ℝ) (width height : ℝ)
  | circle (center : ℝ × ℝ) (radius : ℝ)
  | polygon (rows : List (Option (ℝ × ℝ)))

namespace CoordinateShape
variable (S : CoordinateShape)

/-- the patch of a plot in two dimensions, shapes.py:284-293, 331-367 (`cyl[:, [1, 0]]` exchanges the columns) -/
noncomputable def plot2 (junk : ℕ → Option (ℝ × ℝ)) (d0 d1 : ℕ) : Patch2 :=
  let timeaxis : ℤ := if d0 = 0 then 0 else if d1 = 0 then 1 else -1
  let hollow := S.hollow.getD 0
  let c := (S.center.getD d0 0, S.center.getD d1 0)
  let r := S.radius.getD 0
  if S.name = "cube" then
    let a := S.edge.getD 0
    .rectangle (c.1 - 0.5 * a, c.2 - 0.5 * a) a a
  else if S.name = "ball" ∨ (timeaxis < 0 ∧ (S.name = "bicone" ∨ S.name = "cylinder")) then
    if test (hollow = 0) then .circle c r else .polygon (circleEdge junk c r hollow (-1))
  else if S.name = "cylinder" then
    let cyl := cylinderCutEdge c r (S.duration.getD 0) hollow
    .polygon (if timeaxis = 0 then cyl.map (Option.map Prod.swap) else cyl)
  else if S.name = "bicone" then .polygon (biconeEdge c r hollow)
  else
    let e := ((S.edges.getD []).getD d0 0, (S.edges.getD []).getD d1 0)
    .rectangle (c.1 - 0.5 * e.1, c.2 - 0.5 * e.2) e.1 e.2

/-- `tip[timeaxis] = conecenter[timeaxis] - r` and the like, shapes.py:311-314, 319-320; index -1 is the last entry (not used: `timeaxis >= 0` there) -/
def setAxis (c : ℝ × ℝ × ℝ) (axis : ℤ) (f : ℝ → ℝ) : ℝ × ℝ × ℝ :=
  if axis = 0 then (f c.1, c.2.1, c.2.2) else if axis = 1 then (c.1, f c.2.1, c.2.2) else (c.1, c.2.1, f c.2.2)

/-- the surfaces of a plot in three dimensions, shapes.py:284-330 (its side effect on the shape: `plot3After`) -/
noncomputable def plot3 (d0 d1 d2 : ℕ) : List Patch :=
  let timeaxis : ℤ := if d0 = 0 then 0 else if d1 = 0 then 1 else if d2 = 0 then 2 else -1
  let hollow := S.hollow.getD 0
  let c := (S.center.getD d0 0, S.center.getD d1 0, S.center.getD d2 0)
  let r := S.radius.getD 0
  if S.name = "cube" then cubeSurface c (S.edge.getD 0)
  else if S.name = "ball" ∨ (timeaxis < 0 ∧ (S.name = "bicone" ∨ S.name = "cylinder")) then
    if test (hollow > 0) then [ballSurface c (hollow * r) (-1)] ++ [ballSurface c r (-1)] else [ballSurface c r (-1)]
  else if S.name = "cylinder" then [cylinderSurface c r (S.duration.getD 0) hollow timeaxis (-1)]
  else if S.name = "bicone" then
    let S1 := [openConeSurface (setAxis c timeaxis (· - r)) r r timeaxis (-1), openConeSurface (setAxis c timeaxis (· + r)) r (-r) timeaxis (-1)]
    if test (hollow > 0) then
      let r := r * hollow
      [openConeSurface (setAxis c timeaxis (· - r)) r r timeaxis (-1), openConeSurface (setAxis c timeaxis (· + r)) r (-r) timeaxis (-1)] ++ S1
    else S1
  else cuboidSurface c ((S.edges.getD []).getD d0 0, (S.edges.getD []).getD d1 0, (S.edges.getD []).getD d2 0)

/-- the shape after `plot` in three dimensions, shapes.py:284-330: `r` is the array object stored in `_params`, so that `r *= hollow` (shapes.py:318, numpy's in-place
multiplication) writes to the parameter `radius` of the shape; no other statement of `plot` writes to the shape -/
noncomputable def plot3After (d0 d1 d2 : ℕ) : CoordinateShape :=
  let timeaxis : ℤ := if d0 = 0 then 0 else if d1 = 0 then 1 else if d2 = 0 then 2 else -1
  let hollow := S.hollow.getD 0
  let r := S.radius.getD 0
  if S.name = "cube" then S
  else if S.name = "ball" ∨ (timeaxis < 0 ∧ (S.name = "bicone" ∨ S.name = "cylinder")) then S
  else if S.name = "cylinder" then S
  else if S.name = "bicone" then
    if test (hollow > 0) then { S with radius := some (r * hollow) } else S
  else S

end CoordinateShape

/-! ## Shape objects with their memory -/

/-- a `CoordinateShape` object with the attribute `_volume` (`none`: not set yet), shapes.py:29, 184, 212 -/
structure ShapeObj where
  shape : CoordinateShape
  vol : Option ℝ := none

namespace ShapeObj

/-- `Volume`, shapes.py:177-213: the value is computed and stored when it is read first -/
noncomputable def readVolume (o : ShapeObj) : ℝ × ShapeObj := match o.vol with
  | some V => (V, o)
  | none => (o.shape.volume, { o with vol := some o.shape.volume })

/-- calls of the methods and properties of a shape object -/
inductive Call where
  | volume
  | limits (dim : ℤ)
  | maxEdgeHalf (dims : List ℤ)
  | parameter (key : String)
  | str
  | plot2 (d0 d1 : ℕ)
  | plot3 (d0 d1 d2 : ℕ)

/-- the object after a call, shapes.py:138-367 (only `Volume` and `plot` write to the object) -/
noncomputable def after (o : ShapeObj) : Call → ShapeObj
  | .volume => o.readVolume.2
  | .plot3 d0 d1 d2 => { o with shape := o.shape.plot3After d0 d1 d2 }
  | _ => o

end ShapeObj

end Causets
