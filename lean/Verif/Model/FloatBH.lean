import Verif.Model.FloatCausality

/-!
# The causality function of black hole spacetimes in floating point arithmetic (spacetimes.py)

As in `Verif.Model.FloatCausality`: every arithmetic operation is followed by the rounding `rnd`, the logarithm of the library is an arbitrary function.
There is no tolerance in this function.  The logarithm of 0 (points exactly on the horizon) is not modelled here, see `Verif.Model.Horizon` and `Verif.Model.Ieee`.
-/

namespace Causets

/-- `_light_EF(0.0, 0.0)`, spacetimes.py:705-709, and `_light_S(0.0, 0.0)`, spacetimes.py:730-734 -/
noncomputable def lightFl (rnd log : ℝ → ℝ) (metric : BHMetric) (rS r : ℝ) : ℝ :=
  let k := if metric = .schwarzschild then rS else rnd (2 * rS)
  rnd (rnd (rnd (r - 0) + 0) + rnd (k * log |rnd (rnd (r - rS) / rnd (0 - rS))|))

/-- `isCausal_BH2D`, spacetimes.py:755-788 -/
noncomputable def causalityBHFl (rnd log : ℝ → ℝ) (metric : BHMetric) (rS : ℝ) (x y : Point) : Bool × Bool :=
  let isS := metric = .schwarzschild
  let func := lightFl rnd log metric rS
  if test (rnd (x 1 * y 1) < 0) then (false, false)
  else
    let tDelta := rnd (y 0 - x 0)
    let rx := |x 1|
    let ry := |y 1|
    let isSwapped := if test (isS ∧ (rx < rS ∨ ry < rS)) then test (rx < ry) else test (tDelta < 0)
    let rx' := if isSwapped then ry else rx
    let ry' := if isSwapped then rx else ry
    let tDelta' := if isSwapped then -tDelta else tDelta
    let tOut := rnd (func ry' - func rx')
    let tIn := if isS then -tOut else rnd (rx' - ry')
    let isCausal :=
      if test (ry' ≤ rx' ∧ rx' ≤ rS) then test (tOut ≥ tDelta' ∧ tDelta' ≥ tIn)
      else if test (rS ≤ rx' ∧ rx' ≥ ry') then test (tDelta' ≥ tIn)
      else if test (rS ≤ rx' ∧ rx' ≤ ry') then test (tDelta' ≥ tOut)
      else false
    if isSwapped then (false, isCausal) else (isCausal, false)

end Causets
