import Verif.Model.Spacetimes

/-!
# Black hole causality with numpy's values on the horizon (spacetimes.py:693-788)

The same function as `causalityBH`, with the values `-inf`, `inf` and `nan` that numpy's logarithm and arithmetic give for points on the
horizon.
-/

namespace Causets

/-- the values of a numpy float (exact arithmetic for the finite ones) -/
inductive NpReal
  | nan
  | ninf
  | pinf
  | fin (r : ℝ)

namespace NpReal

/-- `-z` -/
def neg : NpReal → NpReal
  | nan => nan
  | ninf => pinf
  | pinf => ninf
  | fin r => fin (-r)

/-- `a + z` for a finite `a` -/
def addFin (a : ℝ) : NpReal → NpReal
  | nan => nan
  | ninf => ninf
  | pinf => pinf
  | fin r => fin (a + r)

/-- `a * z` for a finite `a` -/
noncomputable def mulFin (a : ℝ) : NpReal → NpReal
  | nan => nan
  | ninf => if test (a > 0) then ninf else if test (a < 0) then pinf else nan
  | pinf => if test (a > 0) then pinf else if test (a < 0) then ninf else nan
  | fin r => fin (a * r)

/-- `z - w` -/
def sub : NpReal → NpReal → NpReal
  | nan, _ => nan
  | _, nan => nan
  | ninf, ninf => nan
  | pinf, pinf => nan
  | ninf, _ => ninf
  | pinf, _ => pinf
  | fin _, ninf => pinf
  | fin _, pinf => ninf
  | fin a, fin b => fin (a - b)

/-- `z >= w` (false if one of them is `nan`) -/
noncomputable def ge : NpReal → NpReal → Bool
  | nan, _ => false
  | _, nan => false
  | pinf, _ => true
  | _, ninf => true
  | ninf, _ => false
  | fin _, pinf => false
  | fin a, fin b => test (a ≥ b)

/-- `np.log(z)` for `z >= 0` -/
noncomputable def log (z : ℝ) : NpReal := if test (z = 0) then ninf else fin (Real.log z)

end NpReal

/-- `_light_EF`, `_light_S` with `derivative=0`, outgoing, from `(0, 0)` (the call in line 751-753), spacetimes.py:706-708 and 731-733 -/
noncomputable def lightNp (metric : BHMetric) (rS r : ℝ) : NpReal :=
  NpReal.addFin (r - 0 + 0) (NpReal.mulFin (if metric = .schwarzschild then rS else 2 * rS) (NpReal.log |(r - rS) / (0 - rS)|))

/-- `isCausal_BH2D`, spacetimes.py:755-788 -/
noncomputable def causalityBHNp (metric : BHMetric) (rS : ℝ) (x y : Point) : Bool × Bool :=
  let isS := metric = .schwarzschild
  if test (x 1 * y 1 < 0) then (false, false)
  else
    let tDelta := y 0 - x 0
    let rx := |x 1|
    let ry := |y 1|
    let isSwapped := if test (isS ∧ (rx < rS ∨ ry < rS)) then test (rx < ry) else test (tDelta < 0)
    let rx' := if isSwapped then ry else rx
    let ry' := if isSwapped then rx else ry
    let tDelta' := if isSwapped then -tDelta else tDelta
    let tOut := (lightNp metric rS ry').sub (lightNp metric rS rx')
    let tIn := if isS then tOut.neg else .fin (rx' - ry')
    let isCausal :=
      if test (ry' ≤ rx' ∧ rx' ≤ rS) then tOut.ge (.fin tDelta') && NpReal.ge (.fin tDelta') tIn
      else if test (rS ≤ rx' ∧ rx' ≥ ry') then NpReal.ge (.fin tDelta') tIn
      else if test (rS ≤ rx' ∧ rx' ≤ ry') then NpReal.ge (.fin tDelta') tOut
      else false
    if isSwapped then (false, isCausal) else (isCausal, false)

end Causets
