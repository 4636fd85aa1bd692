import Verif.Model.Plotting
import Verif.Model.EmbPermutation

/-!
# `plot` and `plotDiagram` (causetplotting.py:686-723), `CausetEvent.Position` (causetevent.py:465-485)

`pos e = none` means that the event has no attribute `_position`.  `set_axis_off` and the axes object are not modelled, nor is a plot of a `Position` along an axis with
a number above 1 (IndexError in the code).
-/

namespace Causets

/-- `CausetEvent.Position`, causetevent.py:465-473 -/
noncomputable def getPosition (pos : EId → Option Point) (e : EId) : Point := (pos e).getD (point2 0 0)

/-- the setter of `CausetEvent.Position`, causetevent.py:475-484, for an iterable of numbers -/
noncomputable def setPosition (pos : EId → Option Point) (e : EId) (value : List ℝ) : Except Err (EId → Option Point) := match value with
  | [t, x] => .ok (fun a => if a = e then some (point2 t x) else pos a)
  | _ => .error .valueError

/-- the loop of `plotDiagram`, causetplotting.py:717-718: `C` are the rows (of two columns) from the index of the next event on (`C` has as many rows as there are events) -/
noncomputable def positionLoop : List EId → List Point → (EId → Option Point) → Except Err (EId → Option Point)
  | [], _, pos => .ok pos
  | e :: es, C, pos => match setPosition pos e [C.headD (point2 0 0) 0, C.headD (point2 0 0) 1] with
    | .error x => .error x
    | .ok pos' => positionLoop es C.tail pos'

/-- the keyword argument `time` of `plot`: not given, a number or a pair of numbers -/
inductive PlotTime
  | unset
  | one (t : ℝ)
  | two (t0 t1 : ℝ)

/-- `plot(E, plotAxes, spacetime, **kwargs)`, causetplotting.py:686-701 -/
noncomputable def plotCall {γ : Type} (it : Iter) (eps : ℝ) (g dc : Scheme) (geomP geomF : Point → ℝ → Except Err (Option γ)) (co : EId → Point)
    (E : PlotTarget) (a : PlotArgs) (time : PlotTime) : StateM Heap (Except Err (PlotOut γ)) := match time with
  | .unset => plotter it eps g dc geomP geomF co E a 0 0
  | .one t => plotter it eps g dc geomP geomF co E a t t
  | .two t0 t1 => plotter it eps g dc geomP geomF co E a t0 t1

/-- `plotDiagram(E, permutation, plotAxes, **kwargs)`, causetplotting.py:704-723; `junk` is the memory of `np.empty` in `_Permutation_Coords`.  Returns also the positions of the events
(if an error is raised, those from before the call or after it) -/
noncomputable def plotDiagram {γ : Type} (it : Iter) (eps : ℝ) (g dc : Scheme) (geomP geomF : Point → ℝ → Except Err (Option γ)) (junk : ℕ → Point)
    (E : List EId) (P : List ℤ) (a : PlotArgs) (time : PlotTime) (pos : EId → Option Point) : StateM Heap (Except Err (PlotOut γ) × (EId → Option Point)) :=
  let pos' : Except Err (EId → Option Point) :=
    if P.length = E.length then match permutationCoords junk P 1 with
      | .error x => .error x
      | .ok C => positionLoop E C pos
    else .ok pos
  match pos' with
  | .error x => pure (.error x, pos)
  | .ok pos' => do
    let r ← plotCall it eps g dc geomP geomF (getPosition pos') (.list E) a time
    pure (r, pos')

end Causets
