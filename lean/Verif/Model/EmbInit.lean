import Verif.Model.Sprinkling

/-!
# Spacetime objects and `EmbeddedCauset.__init__` (spacetimes.py:22-94, embeddedcauset.py:18-171)

Spacetime objects are the ones the library can construct (user-defined subclasses of `Spacetime` are not modelled).
-/

namespace Causets

/-- a spacetime object: an object of the base class `Spacetime` or of one of its subclasses -/
inductive SpacetimeObj
  | base
  | flat (M : FlatSpacetime)
  | deSitter (dim : ℕ) (alpha : ℝ)
  | antiDeSitter (dim : ℕ) (alpha : ℝ)
  | blackHole (rS : ℝ) (metric : BHMetric)

namespace SpacetimeObj

/-- `Dim`, spacetimes.py:34-38 (base class: 2), 46-51; black holes are 2-dimensional by construction (664-673) -/
def dim : SpacetimeObj → ℕ
  | base => 2
  | flat M => M.dim
  | deSitter d _ => d
  | antiDeSitter d _ => d
  | blackHole _ _ => 2

/-- `Name`, spacetimes.py:34-38, 53-58; set in 258, 537, 632, 675 -/
def name : SpacetimeObj → String
  | base => ""
  | flat _ => "flat"
  | deSitter _ _ => "de Sitter"
  | antiDeSitter _ _ => "Anti-de Sitter"
  | blackHole _ _ => "black hole"

/-- `MetricName`, spacetimes.py:34-38, 60-65; set in 259, 481, 676-677 -/
def metricName : SpacetimeObj → String
  | base => "unknown"
  | flat _ => "Minkowski"
  | deSitter _ _ => "static"
  | antiDeSitter _ _ => "static"
  | blackHole _ .eddingtonFinkelstein => "Eddington-Finkelstein"
  | blackHole _ .schwarzschild => "Schwarzschild"

/-- `DefaultShape`, spacetimes.py:73-78 (base class, used by (anti-)de Sitter and black holes) and spacetimes.py:284-287 (flat) -/
noncomputable def defaultShape : SpacetimeObj → Except Err CoordinateShape
  | flat M => CoordinateShape.init M.dim (if M.isPeriodic then "cube" else "diamond") {}
  | M => CoordinateShape.init M.dim "cylinder" {}

/-- `Causality`, spacetimes.py:80-94, 289-341, 543-564, 638-654, 748-790 (`eps` is `causality_eps`, which black holes and the base class do not use) -/
noncomputable def causality (eps : ℝ) : SpacetimeObj → Point → Point → Bool × Bool
  | base => causalityBase
  | flat M => M.causality eps
  | deSitter d a => causalityDS eps d a
  | antiDeSitter d a => causalityAdS eps d a
  | blackHole r m => causalityBH m r

end SpacetimeObj

/-- the constructors as called by name in embeddedcauset.py:81-96: `FlatSpacetime(dim)`, `deSitterSpacetime(dim)`, `AntideSitterSpacetime(dim)`,
`BlackHoleSpacetime(dim)` with the defaults of spacetimes.py:255, 529, 625, 664-665 -/
noncomputable def spacetimeByName (name : String) (dim : ℤ) : Except Err SpacetimeObj :=
  if name = "flat" ∨ name = "Minkowski" then (FlatSpacetime.init dim (.float 0)).map .flat
  else if name = "dS" ∨ name = "de Sitter" then (dSInit dim 1).map (fun p => .deSitter p.1 p.2)
  else if name = "AdS" ∨ name = "Anti-de Sitter" then (dSInit dim 0.5).map (fun p => .antiDeSitter p.1 p.2)
  else if name = "black hole" ∨ name = "Schwarzschild" then (bhInit dim 0.5 (some .eddingtonFinkelstein)).map (fun p => .blackHole p.1 p.2)
  else .error .valueError

/-- the argument `spacetime` of `EmbeddedCauset.__init__` (`none`: `None`) -/
inductive SpacetimeArg
  | none
  | name (s : String)
  | obj (M : SpacetimeObj)

/-- the argument `shape` -/
inductive ShapeArg
  | none
  | name (s : String)
  | obj (S : CoordinateShape)

/-- the argument `coordinates`: `None`, a list of rows, a matrix (`np.ndarray` with `ndim == 2`) with `cols` columns, or a vector
(`np.ndarray` with `ndim == 1`) of `n` numbers.  Arrays with another `ndim` are not modelled. -/
inductive CoordsArg
  | none
  | rows (rs : List (List ℝ))
  | matrix (cols : ℕ) (rs : List (Fin cols → ℝ))
  | vector (n : ℕ)

/-- a row of coordinates as a point.  Simplification: a causality function that reads an entry beyond the end of the row raises IndexError in the
code and reads `0` in the model; in three and more dimensions, and in curved spacetimes, the code looks at all entries of the row and the model at the
first `Dim`.  Theorems about causality are about rows with exactly `Dim` entries; rows of any length are in Model/Rows.lean. -/
def rowPoint (r : List ℝ) : Point := fun i => r.getD i 0

/-- an `EmbeddedCauset` object: `_spacetime`, `_shape`, `_events` -/
structure EmbObj where
  spacetime : SpacetimeObj
  shape : CoordinateShape
  events : Finset EId

/-- `Dim`, embeddedcauset.py:166-171 (and `Shape`, `Spacetime`, 152-164, are the fields) -/
def EmbObj.dim (E : EmbObj) : ℕ := E.shape.dim

/-- "initialise dimension", embeddedcauset.py:68-77.  `len(coordinates[0])` raises IndexError for no rows, TypeError for a vector of numbers. -/
def initDim (spacetime : SpacetimeArg) (shape : ShapeArg) (coordinates : CoordsArg) (dim : ℤ) : Except Err ℤ :=
  if dim ≤ 0 then
    match spacetime, shape, coordinates with
    | .obj M, _, _ => .ok M.dim
    | _, .obj S, _ => .ok S.dim
    | _, _, .rows [] => .error .indexError
    | _, _, .rows (r :: _) => .ok r.length
    | _, _, .matrix _ [] => .error .indexError
    | _, _, .matrix cols (_ :: _) => .ok cols
    | _, _, .vector 0 => .error .indexError
    | _, _, .vector (_ + 1) => .error .typeError
    | _, _, .none => .ok 2
  else .ok dim

/-- "initialise spacetime", embeddedcauset.py:79-98 -/
noncomputable def initSpacetime (spacetime : SpacetimeArg) (dim : ℤ) : Except Err SpacetimeObj := do
  let M ← match spacetime with
    | .none => (FlatSpacetime.init dim (.float 0)).map .flat
    | .name s => spacetimeByName s dim
    | .obj M => .ok M
  if (M.dim : ℤ) ≠ dim then .error .valueError else .ok M

/-- "initialise shape", embeddedcauset.py:100-109 (`defaultDim` is `defaultShape.Dim`) -/
noncomputable def initShape (shape : ShapeArg) (defaultShape : CoordinateShape) (dim : ℤ) : Except Err CoordinateShape := do
  let S ← match shape with
    | .none => .ok defaultShape
    | .name s => CoordinateShape.init dim s {}
    | .obj S => .ok S
  if S.dim ≠ defaultShape.dim then .error .valueError else .ok S

/-- the check of the coordinates, embeddedcauset.py:111-117: the points passed to `create` (`none`: `create` is not called) -/
def initCoords (coordinates : CoordsArg) (defaultDim : ℕ) : Except Err (Option (List Point)) :=
  match coordinates with
  | .none => .ok none
  | .rows rs => .ok (some (rs.map rowPoint))
  | .matrix cols rs => if cols ≠ defaultDim then .error .valueError else .ok (some (rs.map fun r => rowPoint (List.ofFn r)))
  | .vector _ => .error .valueError

/-- everything in `__init__` before `create` is called, embeddedcauset.py:65-117 -/
noncomputable def embArgs (spacetime : SpacetimeArg) (shape : ShapeArg) (coordinates : CoordsArg) (dim : ℤ) :
    Except Err (SpacetimeObj × CoordinateShape × Option (List Point)) := do
  let d ← initDim spacetime shape coordinates dim
  let M ← initSpacetime spacetime d
  let D ← M.defaultShape
  let S ← initShape shape D d
  let xs ← initCoords coordinates D.dim
  .ok (M, S, xs)

/-- `EmbeddedCauset.__init__`, embeddedcauset.py:33-118 -/
noncomputable def embInit (eps : ℝ) (it : Iter) (spacetime : SpacetimeArg) (shape : ShapeArg) (coordinates : CoordsArg) (dim : ℤ)
    (w : World Point) : Except Err EmbObj × World Point :=
  match embArgs spacetime shape coordinates dim with
  | .error x => (.error x, w)
  | .ok (M, S, .none) => (.ok ⟨M, S, ∅⟩, w)
  | .ok (M, S, some xs) =>
    let r := create (M.causality eps) it ∅ xs none true w
    match r.2.2.1 with
    | .error x => (.error x, r.2.2.2)
    | .ok _ => (.ok ⟨M, S, r.1⟩, r.2.2.2)

/-- `SprinkledCauset.__init__`, sprinkledcauset.py:25-48, with the initialisation of the super class (line 42).  The result is the exception or the
spacetime, the shape and the set returned by `sprinkle`/`intensify`, and the object. -/
noncomputable def sprInit (eps : ℝ) (it : Iter) (R : Draws) (junk : ℕ → Point) (card : ℤ) (lam : ℝ) (k : ℕ) (dim : ℤ)
    (spacetime : SpacetimeArg) (shape : ShapeArg) (w : World Point) : Except Err (SpacetimeObj × CoordinateShape) × SprState :=
  match embInit eps it spacetime shape .none dim w with
  | (.error x, w') => (.error x, ⟨∅, 0, w'⟩)
  | (.ok E, w') =>
    match SprState.init (E.spacetime.causality eps) it R junk E.dim E.shape card lam k w' with
    | (.error x, s) => (.error x, s)
    | (.ok _, s) => (.ok (E.spacetime, E.shape), s)

end Causets
