import Verif.Model.Embedding
import Verif.Model.Spacetimes

/-! # `EmbeddedCauset.FromPermutation` (embeddedcauset.py:120-150) -/

namespace Causets

/-- a row `(t, x)` of a coordinate matrix with two columns -/
def point2 (t x : ℝ) : Point := fun i => if i = 0 then t else if i = 1 then x else 0

/-- numpy's row index: negative indices count from the end, an index out of range raises IndexError -/
def npIndex (n : ℕ) (j : ℤ) : Except Err ℕ :=
  if 0 ≤ j ∧ j < n then .ok j.toNat
  else if -(n : ℤ) ≤ j ∧ j < 0 then .ok (n + j).toNat
  else .error .indexError

/-- loop of `_Permutation_Coords`, embeddedcauset.py:131-136: `i` is the position of the next entry of `P`, `rows` the matrix -/
noncomputable def permCoordsLoop (cellscale radius : ℝ) : ℕ → List ℤ → List Point → Except Err (List Point)
  | _, [], rows => .ok rows
  | i, p :: ps, rows =>
    let crdU := ((p : ℝ) - 0.5) * cellscale
    let crdV := ((i : ℝ) + 0.5) * cellscale
    match npIndex rows.length (p - 1) with
    | .error x => .error x
    | .ok j => permCoordsLoop cellscale radius (i + 1) ps (rows.set j (point2 (crdU + crdV - radius) (crdU - crdV)))

/-- `_Permutation_Coords`, embeddedcauset.py:120-137; `junk` are the values in the memory of `np.empty` -/
noncomputable def permutationCoords (junk : ℕ → Point) (P : List ℤ) (radius : ℝ) : Except Err (List Point) :=
  let rows := (List.range P.length).map junk
  if P.length > 0 then permCoordsLoop (radius / P.length) radius 0 P rows else .ok rows

/-- `EmbeddedCauset.FromPermutation`, embeddedcauset.py:139-150, with the tolerance `eps` of the causality function of
2-dimensional flat spacetime; the shape `CoordinateShape(2, 'diamond', radius=radius)` raises ValueError unless the radius is positive
(shapes.py:113-115).  Returns the events of the causet. -/
noncomputable def embFromPermutation (eps : ℝ) (it : Iter) (junk : ℕ → Point) (P : List ℤ) (fmt : Option (ℕ → String)) (radius : ℝ)
    (w : World Point) : Except Err (Finset EId) × World Point :=
  if test (radius ≤ 0) then (.error .valueError, w)
  else match permutationCoords junk P radius with
    | .error x => (.error x, w)
    | .ok rows =>
      let r := create (causalityFlat2D eps) it ∅ rows fmt true w
      match r.2.2.1 with
      | .error x => (.error x, r.2.2.2)
      | .ok _ => (.ok r.1, r.2.2.2)

end Causets
