import Verif.Model.Float32

/-!
# Flat causality in single precision, with NumPy's types (spacetimes.py)

The coordinates are `float32`, but the periods and the tolerance are not, so the type of every intermediate result depends on NumPy's promotion rules and, with periods, even on the values
(`min(r_delta, _period[i - 1] - r_delta)` is a `float32` or a `float64`).  Here every number carries its type; the type decides how a result is rounded.
* an operation with two NumPy scalars has the wider type;
* a Python number counts as `float64` with NumPy 1; with NumPy 2 (NEP 50) it is converted to the type of the NumPy scalar.
As in `Verif.Model.Float32` there is no overflow and no `-0.0`.
-/

namespace Causets

/-- a NumPy scalar: its value and if its type is `float64` (otherwise `float32`) -/
structure NpFloat where
  val : ℝ
  wide : Bool

/-- an operand: a Python number or a NumPy scalar -/
inductive PyNum where
  | py (c : ℝ)
  | np (a : NpFloat)

/-- the type of a number in the tuple `period` (or of the array of periods, spacetimes.py:269) -/
inductive NumKind where
  | py
  | np32
  | np64

/-- NumPy: the roundings to `float32` and `float64`, the power `**2` of scalars in both types (`powf`, `pow`), and the promotion rules -/
structure NpArith where
  r32 : ℝ → ℝ
  r64 : ℝ → ℝ
  sq32 : ℝ → ℝ
  sq64 : ℝ → ℝ
  np2 : Bool

namespace NpArith

variable (A : NpArith)

/-- rounding to the type -/
def rnd (wide : Bool) : ℝ → ℝ := if wide then A.r64 else A.r32

/-- `**2` in the type -/
def sq (wide : Bool) : ℝ → ℝ := if wide then A.sq64 else A.sq32

/-- the type of the result of an operation of a NumPy scalar (`wide`) with the operand -/
def wideWith (wide : Bool) : PyNum → Bool
  | .py _ => wide || !A.np2
  | .np a => wide || a.wide

/-- the operand as a number of the type -/
def valueIn (wide : Bool) : PyNum → ℝ
  | .py c => A.rnd wide c
  | .np a => a.val

/-- `c - a` -/
def subFrom (c : PyNum) (a : NpFloat) : NpFloat :=
  let w := A.wideWith a.wide c
  ⟨A.rnd w (A.valueIn w c - a.val), w⟩

/-- `c + a` -/
def addTo (c : PyNum) (a : NpFloat) : NpFloat :=
  let w := A.wideWith a.wide c
  ⟨A.rnd w (A.valueIn w c + a.val), w⟩

/-- `c - eps` with a Python float `eps` -/
def subEps (c : PyNum) (eps : ℝ) : NpFloat :=
  match c with
  | .py c => ⟨A.r64 (c - eps), true⟩
  | .np a => ⟨A.rnd (a.wide || !A.np2) (a.val - A.rnd (a.wide || !A.np2) eps), a.wide || !A.np2⟩

/-- `a**2` -/
def square (a : NpFloat) : NpFloat :=
  let w := A.wideWith a.wide (.py 2)
  ⟨A.sq w a.val, w⟩

end NpArith

/-- `min(a, b)` of Python -/
noncomputable def npMin (a b : NpFloat) : NpFloat := if b.val < a.val then b else a

/-- the entry `_period[i]` with its type -/
def periodOperand (kind : ℕ → NumKind) (period : ℕ → ℝ) (i : ℕ) : PyNum :=
  match kind i with
  | .py => .py (period i)
  | .np32 => .np ⟨period i, false⟩
  | .np64 => .np ⟨period i, true⟩

/-- the distance along a periodic direction, spacetimes.py:318-320 and 332-335 -/
noncomputable def NpArith.delta (A : NpArith) (kind : ℕ → NumKind) (period : ℕ → ℝ) (i : ℕ) (x y : Point) : NpFloat :=
  let r : NpFloat := ⟨|A.r32 (y i - x i)|, false⟩
  if period (i - 1) > 0 then npMin r (A.subFrom (periodOperand kind period (i - 1)) r) else r

/-- `isCausal_flat2Dperiodic`, spacetimes.py:315-325 -/
noncomputable def NpArith.causalityFlat2DPeriodic (A : NpArith) (eps : ℝ) (kind : ℕ → NumKind) (period : ℕ → ℝ) (x y : Point) : Bool × Bool :=
  let tDelta := A.r32 (y 0 - x 0)
  let rDelta := A.delta kind period 1 x y
  let isCausal := test (|tDelta| ≥ (A.subEps (.np ⟨|rDelta.val|, rDelta.wide⟩) eps).val)
  (test (tDelta ≥ 0) && isCausal, test (tDelta < 0) && isCausal)

/-- `isCausal_flatperiodic`, spacetimes.py:327-341; the sum starts with the Python float `0.0` -/
noncomputable def NpArith.causalityFlatPeriodic (A : NpArith) (eps : ℝ) (dim : ℕ) (kind : ℕ → NumKind) (period : ℕ → ℝ) (x y : Point) : Bool × Bool :=
  let tDelta := A.r32 (y 0 - x 0)
  let r2Delta := (List.range' 1 (dim - 1)).foldl (fun s i => PyNum.np (A.addTo s (A.square (A.delta kind period i x y)))) (.py 0)
  let isCausal := test (A.r32 (tDelta ^ 2) ≥ (A.subEps r2Delta eps).val)
  (test (tDelta ≥ 0) && isCausal, test (tDelta < 0) && isCausal)

/-- `FlatSpacetime.Causality`, spacetimes.py:289-341, for `float32` coordinates; without periods see `causalityMinkMix`, where the sum is `float64` with NumPy 1 and the tolerance is
converted to the type of the sum -/
noncomputable def FlatSpacetime.causality32 (A : NpArith) (eps : ℝ) (kind : ℕ → NumKind) (M : FlatSpacetime) : Point → Point → Bool × Bool :=
  if M.dim = 1 then causalityBaseFl A.r32
  else if !M.isPeriodic then causalityMinkMix A.r32 (A.rnd (!A.np2)) (A.rnd (!A.np2) eps) M.dim
  else
    let period : ℕ → ℝ := fun i => (M.period.getD []).getD i 0
    if M.dim = 2 then A.causalityFlat2DPeriodic eps kind period else A.causalityFlatPeriodic eps M.dim kind period

end Causets
