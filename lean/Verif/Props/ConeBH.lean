import Verif.Model.LightCone
import Verif.Props.BlackHole
import Verif.Props.Newton
import Mathlib.Analysis.SpecialFunctions.Log.Deriv

/-!
# C85 — causal cones of black holes

The corners of the polygon drawn by `ConePlotter` for a black hole are compared with the causality function: a corner `(x, t)` on a light ray is the earliest or the
latest time at which an event at the position `x` is related to the event of the cone.
-/

namespace Causets

/-! ## Specification -/

/-- the event at the time `s` and the position `x` -/
def evt (s x : ℝ) : Point := fun i => if i = 0 then s else x

/-- **Specification.** The times at which an event at the position `x` is in the causal future of `o`. -/
def futureTimes (c : Point → Point → Bool × Bool) (o : Point) (x : ℝ) : Set ℝ := {s | (c o (evt s x)).1 = true}

/-- **Specification.** The times at which an event at the position `x` is in the causal past of `o`. -/
def pastTimes (c : Point → Point → Bool × Bool) (o : Point) (x : ℝ) : Set ℝ := {s | (c (evt s x) o).1 = true}

/-- **Specification.** `r` is an approximate solution of `f r = t` as found by Newton's method: the value after a step of less than `10⁻⁶` that starts at a point where `f`
(with the derivative `f'`) differs from `t` by less than `10⁻⁶ * |f'|`, or that was stopped near the horizon or at the singularity; or 0 if the method does not converge. -/
def ApproxRoot (rS : ℝ) (f f' : ℝ → ℝ) (t r : ℝ) : Prop :=
  r = 0 ∨ ∃ z, |z - r| < 1 / 10 ^ 6 ∧ (|f z - t| < 1 / 10 ^ 6 * |f' z| ∨ |r - rS| = 1 / 10 ^ 6 ∨ r = 1 / 10 ^ 6)

/-! ## Light rays -/

theorem lightEF_out {rS r0 r : ℝ} (hS : 0 < rS) (t0 : ℝ) (h0 : r0 ≠ rS) (h : r ≠ rS) :
    lightEF rS t0 r0 false r = t0 + rayTime 2 rS r - rayTime 2 rS r0 := by
  unfold lightEF rayTime
  simp only [Bool.false_eq_true, if_false]
  have e : (r - rS) / (r0 - rS) = (r / rS - 1) / (r0 / rS - 1) := by
    rw [← sub_ne_zero] at h0
    field_simp
  have h1 : |r / rS - 1| ≠ 0 := by rw [abs_ne_zero, sub_ne_zero, Ne, div_eq_one_iff_eq hS.ne']; exact h
  have h2 : |r0 / rS - 1| ≠ 0 := by rw [abs_ne_zero, sub_ne_zero, Ne, div_eq_one_iff_eq hS.ne']; exact h0
  rw [e, abs_div, Real.log_div h1 h2]; ring

theorem lightS_out {rS r0 r : ℝ} (hS : 0 < rS) (t0 : ℝ) (h0 : r0 ≠ rS) (h : r ≠ rS) :
    lightS rS t0 r0 false r = t0 + rayTime 1 rS r - rayTime 1 rS r0 ∧ lightS rS t0 r0 true r = t0 + rayTime 1 rS r0 - rayTime 1 rS r := by
  unfold lightS rayTime
  simp only [Bool.false_eq_true, if_false, if_true]
  have e : (r - rS) / (r0 - rS) = (r / rS - 1) / (r0 / rS - 1) := by
    rw [← sub_ne_zero] at h0
    field_simp
  have h1 : |r / rS - 1| ≠ 0 := by rw [abs_ne_zero, sub_ne_zero, Ne, div_eq_one_iff_eq hS.ne']; exact h
  have h2 : |r0 / rS - 1| ≠ 0 := by rw [abs_ne_zero, sub_ne_zero, Ne, div_eq_one_iff_eq hS.ne']; exact h0
  rw [e, abs_div, Real.log_div h1 h2]; constructor <;> ring

theorem hasDerivAt_rayTime {rS r : ℝ} (hS : 0 < rS) (k : ℝ) (h : r ≠ rS) : HasDerivAt (rayTime k rS) (1 + k * rS / (r - rS)) r := by
  have h1 : r / rS - 1 ≠ 0 := by rw [sub_ne_zero, Ne, div_eq_one_iff_eq hS.ne']; exact h
  have h2 : HasDerivAt (fun r : ℝ => r / rS - 1) (1 / rS) r := ((hasDerivAt_id r).div_const rS).sub_const 1
  have h3 := (Real.hasDerivAt_log h1).comp r h2
  have h4 := (hasDerivAt_id r).add (h3.const_mul (k * rS))
  have e : rayTime k rS = fun r => r + k * rS * Real.log (r / rS - 1) := by
    funext z; unfold rayTime; rw [Real.log_abs]
  rw [e]
  refine h4.congr_deriv ?_
  have : r - rS ≠ 0 := sub_ne_zero.2 h
  field_simp

/-- **C85, derivatives.** The functions used as derivatives in Newton's method are the derivatives of the light rays, off the horizon. -/
theorem C85_derivatives {rS r0 r : ℝ} (hS : 0 < rS) (t0 : ℝ) (h0 : r0 ≠ rS) (h : r ≠ rS) :
    HasDerivAt (lightEF rS t0 r0 false) (lightEFd rS r) r ∧ HasDerivAt (lightS rS t0 r0 false) (lightSd rS false r) r ∧
    HasDerivAt (lightS rS t0 r0 true) (lightSd rS true r) r := by
  have hne : ∀ᶠ z in nhds r, z ≠ rS := isOpen_ne.mem_nhds h
  refine ⟨?_, ?_, ?_⟩
  · refine HasDerivAt.congr_of_eventuallyEq (f := fun z => t0 + rayTime 2 rS z - rayTime 2 rS r0) ?_ (hne.mono fun z hz => lightEF_out hS t0 h0 hz)
    refine (((hasDerivAt_rayTime hS 2 h).const_add t0).sub_const _).congr_deriv ?_
    simp [lightEFd]
  · refine HasDerivAt.congr_of_eventuallyEq (f := fun z => t0 + rayTime 1 rS z - rayTime 1 rS r0) ?_ (hne.mono fun z hz => (lightS_out hS t0 h0 hz).1)
    refine (((hasDerivAt_rayTime hS 1 h).const_add t0).sub_const _).congr_deriv ?_
    simp [lightSd]
  · refine HasDerivAt.congr_of_eventuallyEq (f := fun z => t0 + rayTime 1 rS r0 - rayTime 1 rS z) ?_ (hne.mono fun z hz => (lightS_out hS t0 h0 hz).2)
    refine ((hasDerivAt_rayTime hS 1 h).const_sub _).congr_deriv ?_
    simp [lightSd]; ring

/-- inside the horizon, light moves inwards -/
theorem rayTime_inside {rS r r0 : ℝ} (hS : 0 < rS) (h0 : 0 ≤ r) (h : r ≤ r0) (h1 : r0 < rS) :
    r0 - r ≤ rayTime 2 rS r - rayTime 2 rS r0 ∧ 0 ≤ rayTime 1 rS r - rayTime 1 rS r0 := by
  have ea : |r / rS - 1| = (rS - r) / rS := by
    rw [abs_of_neg (by rw [sub_neg, div_lt_one hS]; linarith)]; field_simp; ring
  have eb : |r0 / rS - 1| = (rS - r0) / rS := by
    rw [abs_of_neg (by rw [sub_neg, div_lt_one hS]; linarith)]; field_simp; ring
  have p1 : 0 < rS - r := by linarith
  have p2 : 0 < rS - r0 := by linarith
  have key : r0 - r ≤ rS * (Real.log ((rS - r) / rS) - Real.log ((rS - r0) / rS)) := by
    rw [Real.log_div p1.ne' hS.ne', Real.log_div p2.ne' hS.ne']
    have h2 := Real.one_sub_inv_le_log_of_pos (div_pos p1 p2)
    rw [Real.log_div p1.ne' p2.ne', inv_div] at h2
    have h3 : (r0 - r) / rS ≤ 1 - (rS - r0) / (rS - r) := by
      have : 1 - (rS - r0) / (rS - r) = (r0 - r) / (rS - r) := by field_simp; ring
      rw [this]
      exact div_le_div_of_nonneg_left (by linarith) p1 (by linarith)
    have h4 : (r0 - r) / rS ≤ Real.log (rS - r) - Real.log (rS - r0) := h3.trans h2
    rw [div_le_iff₀ hS] at h4
    linarith
  unfold rayTime
  rw [ea, eb]
  constructor <;> nlinarith

/-! ## Earliest and latest times -/

@[simp] theorem evt_zero (s x : ℝ) : evt s x 0 = s := rfl
@[simp] theorem evt_one (s x : ℝ) : evt s x 1 = x := rfl

theorem EF_future_mem {rS : ℝ} (hS : 0 < rS) {o : Point} {x : ℝ} (ho : |o 1| ≠ rS) (hx : |x| ≠ rS) (hsame : 0 ≤ o 1 * x) (s : ℝ) :
    s ∈ futureTimes (causalityBH .eddingtonFinkelstein rS) o x ↔ |o 1| - |x| ≤ s - o 0 ∧
      (|o 1| < rS → |x| ≤ |o 1| ∧ s - o 0 ≤ rayTime 2 rS |x| - rayTime 2 rS |o 1|) ∧
      (rS < |o 1| → rS < |x| → rayTime 2 rS |x| - rayTime 2 rS |o 1| ≤ s - o 0) := by
  show (causalityBH .eddingtonFinkelstein rS o (evt s x)).1 = true ↔ _
  rw [C44_EF hS o (evt s x) ho (by simpa using hx)]
  simp only [EFLe, evt_zero, evt_one]
  exact and_iff_right hsame

theorem EF_past_mem {rS : ℝ} (hS : 0 < rS) {o : Point} {x : ℝ} (ho : |o 1| ≠ rS) (hx : |x| ≠ rS) (hsame : 0 ≤ o 1 * x) (s : ℝ) :
    s ∈ pastTimes (causalityBH .eddingtonFinkelstein rS) o x ↔ |x| - |o 1| ≤ o 0 - s ∧
      (|x| < rS → |o 1| ≤ |x| ∧ o 0 - s ≤ rayTime 2 rS |o 1| - rayTime 2 rS |x|) ∧
      (rS < |x| → rS < |o 1| → rayTime 2 rS |o 1| - rayTime 2 rS |x| ≤ o 0 - s) := by
  show (causalityBH .eddingtonFinkelstein rS (evt s x) o).1 = true ↔ _
  rw [C44_EF hS (evt s x) o (by simpa using hx) ho]
  simp only [EFLe, evt_zero, evt_one]
  rw [mul_comm]
  exact and_iff_right hsame

theorem S_future_mem {rS : ℝ} (hS : 0 < rS) {o : Point} {x : ℝ} (ho : |o 1| ≠ rS) (hx : |x| ≠ rS) (hsame : 0 ≤ o 1 * x) (s : ℝ) :
    s ∈ futureTimes (causalityBH .schwarzschild rS) o x ↔
      (|o 1| < rS → |x| ≤ |o 1| ∧ |s - o 0| ≤ rayTime 1 rS |x| - rayTime 1 rS |o 1|) ∧
      (rS < |o 1| → |x| < rS → rayTime 1 rS |o 1| - rayTime 1 rS |x| ≤ s - o 0) ∧
      (rS < |o 1| → rS < |x| → abs (rayTime 1 rS |x| - rayTime 1 rS |o 1|) ≤ s - o 0) := by
  show (causalityBH .schwarzschild rS o (evt s x)).1 = true ↔ _
  rw [C44_Schwarzschild hS o (evt s x) ho (by simpa using hx)]
  simp only [SchwarzschildLe, evt_zero, evt_one]
  exact and_iff_right hsame

theorem S_past_mem {rS : ℝ} (hS : 0 < rS) {o : Point} {x : ℝ} (ho : |o 1| ≠ rS) (hx : |x| ≠ rS) (hsame : 0 ≤ o 1 * x) (s : ℝ) :
    s ∈ pastTimes (causalityBH .schwarzschild rS) o x ↔
      (|x| < rS → |o 1| ≤ |x| ∧ |o 0 - s| ≤ rayTime 1 rS |o 1| - rayTime 1 rS |x|) ∧
      (rS < |x| → |o 1| < rS → rayTime 1 rS |x| - rayTime 1 rS |o 1| ≤ o 0 - s) ∧
      (rS < |x| → rS < |o 1| → abs (rayTime 1 rS |o 1| - rayTime 1 rS |x|) ≤ o 0 - s) := by
  show (causalityBH .schwarzschild rS (evt s x) o).1 = true ↔ _
  rw [C44_Schwarzschild hS (evt s x) o (by simpa using hx) ho]
  simp only [SchwarzschildLe, evt_zero, evt_one]
  rw [mul_comm]
  exact and_iff_right hsame

theorem EF_ray {rS : ℝ} (hS : 0 < rS) {o : Point} {x : ℝ} (ho : |o 1| ≠ rS) (hx : |x| ≠ rS) (hsame : 0 ≤ o 1 * x) :
    (rS < |o 1| → |o 1| ≤ |x| → IsLeast (futureTimes (causalityBH .eddingtonFinkelstein rS) o x) (lightEF rS (o 0) |o 1| false |x|)) ∧
    (|o 1| < rS → |x| ≤ |o 1| → IsGreatest (futureTimes (causalityBH .eddingtonFinkelstein rS) o x) (lightEF rS (o 0) |o 1| false |x|)) ∧
    (rS < |x| → |x| ≤ |o 1| → IsGreatest (pastTimes (causalityBH .eddingtonFinkelstein rS) o x) (lightEF rS (o 0) |o 1| false |x|)) ∧
    (|o 1| ≤ |x| → |x| < rS → IsLeast (pastTimes (causalityBH .eddingtonFinkelstein rS) o x) (lightEF rS (o 0) |o 1| false |x|)) := by
  rw [lightEF_out hS (o 0) ho hx]
  refine ⟨fun h1 h2 => ?_, fun h1 h2 => ?_, fun h1 h2 => ?_, fun h1 h2 => ?_⟩
  · have hm := rayTime_mono (k := 2) (by norm_num) hS h1 h2
    refine ⟨(EF_future_mem hS ho hx hsame _).2 ⟨by linarith, fun h => absurd h (by linarith), fun _ _ => by linarith⟩, fun s hs => ?_⟩
    have := ((EF_future_mem hS ho hx hsame s).1 hs).2.2 h1 (by linarith)
    linarith
  · have hm := (rayTime_inside hS (abs_nonneg x) h2 h1).1
    refine ⟨(EF_future_mem hS ho hx hsame _).2 ⟨by linarith, fun h => ⟨h2, by linarith⟩, fun h => absurd h (by linarith)⟩, fun s hs => ?_⟩
    have := (((EF_future_mem hS ho hx hsame s).1 hs).2.1 h1).2
    linarith
  · have hm := rayTime_mono (k := 2) (by norm_num) hS h1 h2
    refine ⟨(EF_past_mem hS ho hx hsame _).2 ⟨by linarith, fun h => absurd h (by linarith), fun _ _ => by linarith⟩, fun s hs => ?_⟩
    have := ((EF_past_mem hS ho hx hsame s).1 hs).2.2 h1 (by linarith)
    linarith
  · have hm := (rayTime_inside hS (abs_nonneg (o 1)) h1 h2).1
    refine ⟨(EF_past_mem hS ho hx hsame _).2 ⟨by linarith, fun h => ⟨h1, by linarith⟩, fun h => absurd h (by linarith)⟩, fun s hs => ?_⟩
    have := (((EF_past_mem hS ho hx hsame s).1 hs).2.1 h2).2
    linarith

/-- the ingoing ray -/
theorem EF_in {rS : ℝ} (hS : 0 < rS) {o : Point} {x : ℝ} (ho : |o 1| ≠ rS) (hx : |x| ≠ rS) (hsame : 0 ≤ o 1 * x) :
    (|x| ≤ |o 1| → IsLeast (futureTimes (causalityBH .eddingtonFinkelstein rS) o x) (o 0 + |o 1| - |x|)) ∧
    (|o 1| ≤ |x| → IsGreatest (pastTimes (causalityBH .eddingtonFinkelstein rS) o x) (o 0 + |o 1| - |x|)) := by
  constructor
  · intro h2
    refine ⟨(EF_future_mem hS ho hx hsame _).2 ⟨by linarith, fun h => ⟨h2, ?_⟩, fun h h' => ?_⟩, fun s hs => ?_⟩
    · have := (rayTime_inside hS (abs_nonneg x) h2 h).1; linarith
    · have := rayTime_mono (k := 2) (by norm_num) hS h' h2; linarith
    · have := ((EF_future_mem hS ho hx hsame s).1 hs).1; linarith
  · intro h2
    refine ⟨(EF_past_mem hS ho hx hsame _).2 ⟨by linarith, fun h => ⟨h2, ?_⟩, fun h h' => ?_⟩, fun s hs => ?_⟩
    · have := (rayTime_inside hS (abs_nonneg (o 1)) h2 h).1; linarith
    · have := rayTime_mono (k := 2) (by norm_num) hS h' h2; linarith
    · have := ((EF_past_mem hS ho hx hsame s).1 hs).1; linarith

theorem S_ray {rS : ℝ} (hS : 0 < rS) {o : Point} {x : ℝ} (ho : |o 1| ≠ rS) (hx : |x| ≠ rS) (hsame : 0 ≤ o 1 * x) :
    (rS < |o 1| → |o 1| ≤ |x| → IsLeast (futureTimes (causalityBH .schwarzschild rS) o x) (lightS rS (o 0) |o 1| false |x|)) ∧
    (rS < |o 1| → |x| ≤ |o 1| → IsLeast (futureTimes (causalityBH .schwarzschild rS) o x) (lightS rS (o 0) |o 1| true |x|)) ∧
    (|o 1| < rS → |x| ≤ |o 1| → IsGreatest (futureTimes (causalityBH .schwarzschild rS) o x) (lightS rS (o 0) |o 1| false |x|) ∧
      IsLeast (futureTimes (causalityBH .schwarzschild rS) o x) (lightS rS (o 0) |o 1| true |x|)) ∧
    (rS < |x| → |x| ≤ |o 1| → IsGreatest (pastTimes (causalityBH .schwarzschild rS) o x) (lightS rS (o 0) |o 1| false |x|)) ∧
    (|o 1| ≤ |x| → IsGreatest (pastTimes (causalityBH .schwarzschild rS) o x) (lightS rS (o 0) |o 1| true |x|)) ∧
    (|o 1| ≤ |x| → |x| < rS → IsLeast (pastTimes (causalityBH .schwarzschild rS) o x) (lightS rS (o 0) |o 1| false |x|)) := by
  rw [(lightS_out hS (o 0) ho hx).1, (lightS_out hS (o 0) ho hx).2]
  have F := S_future_mem hS ho hx hsame
  have P := S_past_mem hS ho hx hsame
  refine ⟨fun h1 h2 => ?_, fun h1 h2 => ?_, fun h1 h2 => ?_, fun h1 h2 => ?_, fun h2 => ?_, fun h1 h2 => ?_⟩
  · have hm := rayTime_mono (k := 1) (by norm_num) hS h1 h2
    refine ⟨(F _).2 ⟨fun h => absurd h (by linarith), fun _ h => absurd h (by linarith), fun _ _ => ?_⟩, fun s hs => ?_⟩
    · rw [abs_of_nonneg (by linarith)]; linarith
    · have := ((F s).1 hs).2.2 h1 (by linarith)
      rw [abs_of_nonneg (by linarith)] at this; linarith
  · rcases lt_or_gt_of_ne hx with h3 | h3
    · refine ⟨(F _).2 ⟨fun h => absurd h (by linarith), fun _ _ => by linarith, fun _ h => absurd h (by linarith)⟩, fun s hs => ?_⟩
      have := ((F s).1 hs).2.1 h1 h3
      linarith
    · have hm := rayTime_mono (k := 1) (by norm_num) hS h3 h2
      refine ⟨(F _).2 ⟨fun h => absurd h (by linarith), fun _ h => absurd h (by linarith), fun _ _ => ?_⟩, fun s hs => ?_⟩
      · rw [abs_of_nonpos (by linarith)]; linarith
      · have := ((F s).1 hs).2.2 h1 h3
        rw [abs_of_nonpos (by linarith)] at this; linarith
  · have hm := (rayTime_inside hS (abs_nonneg x) h2 h1).2
    refine ⟨⟨(F _).2 ⟨fun h => ⟨h2, ?_⟩, fun h => absurd h (by linarith), fun h => absurd h (by linarith)⟩, fun s hs => ?_⟩,
      ⟨(F _).2 ⟨fun h => ⟨h2, ?_⟩, fun h => absurd h (by linarith), fun h => absurd h (by linarith)⟩, fun s hs => ?_⟩⟩
    · rw [abs_of_nonneg (by linarith)]; linarith
    · have := (abs_le.1 (((F s).1 hs).1 h1).2).2; linarith
    · rw [abs_of_nonpos (by linarith)]; linarith
    · have := (abs_le.1 (((F s).1 hs).1 h1).2).1; linarith
  · have hm := rayTime_mono (k := 1) (by norm_num) hS h1 h2
    refine ⟨(P _).2 ⟨fun h => absurd h (by linarith), fun _ h => absurd h (by linarith), fun _ _ => ?_⟩, fun s hs => ?_⟩
    · rw [abs_of_nonneg (by linarith)]; linarith
    · have := ((P s).1 hs).2.2 h1 (by linarith)
      rw [abs_of_nonneg (by linarith)] at this; linarith
  · rcases lt_or_gt_of_ne hx with h3 | h3
    · have hm := (rayTime_inside hS (abs_nonneg (o 1)) h2 h3).2
      refine ⟨(P _).2 ⟨fun _ => ⟨h2, ?_⟩, fun h => absurd h (by linarith), fun h => absurd h (by linarith)⟩, fun s hs => ?_⟩
      · rw [abs_of_nonpos (by linarith)]; linarith
      · have := (abs_le.1 (((P s).1 hs).1 h3).2).1; linarith
    · rcases lt_or_gt_of_ne ho with h4 | h4
      · refine ⟨(P _).2 ⟨fun h => absurd h (by linarith), fun _ _ => by linarith, fun _ h => absurd h (by linarith)⟩, fun s hs => ?_⟩
        have := ((P s).1 hs).2.1 h3 h4
        linarith
      · have hm := rayTime_mono (k := 1) (by norm_num) hS h4 h2
        refine ⟨(P _).2 ⟨fun h => absurd h (by linarith), fun _ h => absurd h (by linarith), fun _ _ => ?_⟩, fun s hs => ?_⟩
        · rw [abs_of_nonpos (by linarith)]; linarith
        · have := ((P s).1 hs).2.2 h3 h4
          rw [abs_of_nonpos (by linarith)] at this; linarith
  · have hm := (rayTime_inside hS (abs_nonneg (o 1)) h1 h2).2
    refine ⟨(P _).2 ⟨fun _ => ⟨h1, ?_⟩, fun h => absurd h (by linarith), fun h => absurd h (by linarith)⟩, fun s hs => ?_⟩
    · rw [abs_of_nonneg (by linarith)]; linarith
    · have := (abs_le.1 (((P s).1 hs).1 h2).2).2; linarith

/-! ## Newton's method -/

theorem newtonDefault_root (f f' : ℝ → ℝ) (x0 y rS : ℝ) (lo hi : Option ℝ) (hlo : lo = some 0 ∨ lo = some rS) (hhi : hi = none ∨ hi = some rS) :
    ApproxRoot rS f f' y (newtonDefault f f' x0 y lo hi) := by
  unfold newtonDefault
  obtain ⟨h1, h2⟩ := C51_result f f' x0 y lo hi 0 (1 / 10 ^ 6) 50
  by_cases h : ∃ k : ℕ, (k : ℤ) < 50 ∧ NewtonStops f f' y lo hi (1 / 10 ^ 6) x0 k
  · obtain ⟨k, hk, hs⟩ := h
    right
    rw [h1 k hk hs]
    refine ⟨(newtonStep f f' y lo hi (1 / 10 ^ 6))^[k] x0, hs.2.1, ?_⟩
    have hres := C51_residual f f' x0 y lo hi (1 / 10 ^ 6) k hs
    rw [Function.iterate_succ_apply']
    dsimp only at hres
    set z := (newtonStep f f' y lo hi (1 / 10 ^ 6))^[k] x0
    by_cases c1 : ∃ a, lo = some a ∧ z - (f z - y) / f' z < a
    · have : newtonStep f f' y lo hi (1 / 10 ^ 6) z = lo.getD 0 + 1 / 10 ^ 6 := by unfold newtonStep; rw [if_pos c1]
      rw [this]
      rcases hlo with rfl | rfl
      · right; right; simp
      · right; left; simp [abs_of_pos]
    · by_cases c2 : ∃ a, hi = some a ∧ a < z - (f z - y) / f' z
      · have : newtonStep f f' y lo hi (1 / 10 ^ 6) z = hi.getD 0 - 1 / 10 ^ 6 := by unfold newtonStep; rw [if_neg c1, if_pos c2]
        rw [this]
        rcases hhi with rfl | rfl
        · obtain ⟨a, ha, -⟩ := c2; simp at ha
        · right; left; simp [abs_of_pos]
      · left
        exact hres (by unfold newtonStep; rw [if_neg c1, if_neg c2])
  · left
    exact h2 fun k hk hs => h ⟨k, hk, hs⟩

theorem newtonDefault_nonneg (f f' : ℝ → ℝ) (x0 y rS : ℝ) (hS : 1 / 10 ^ 6 ≤ rS) (lo hi : Option ℝ) (hlo : lo = some 0 ∨ lo = some rS) (hhi : hi = none ∨ (lo = some 0 ∧ hi = some rS)) :
    0 ≤ newtonDefault f f' x0 y lo hi := by
  have hS0 : 0 ≤ rS := le_trans (by positivity) hS
  unfold newtonDefault
  rcases C51_interval f f' x0 y lo hi 0 (1 / 10 ^ 6) 50 (by positivity) (by
    intro a b ha hb
    rcases hhi with rfl | ⟨rfl, rfl⟩
    · simp at hb
    · simp at ha hb; subst ha; subst hb; linarith) with h | ⟨h, -⟩
  · rw [h]
  · rcases hlo with rfl | rfl
    · exact h 0 rfl
    · exact hS0.trans (h rS rfl)

theorem copysign_abs (x y : ℝ) : |copysign x y| = |x| := by
  unfold copysign; split <;> simp

theorem copysign_same (x y : ℝ) : 0 ≤ y * copysign x y := by
  unfold copysign
  by_cases h : y < 0
  · simp [test, h]; nlinarith [abs_nonneg x]
  · simp [test, h]; exact mul_nonneg (not_lt.1 h) (abs_nonneg x)

theorem linspaceR_nonneg {a b : ℝ} (ha : 0 ≤ a) (hb : 0 ≤ b) {n k : ℕ} (hk : k < n) : 0 ≤ linspaceR a b n k := by
  unfold linspaceR
  rcases Nat.lt_or_ge n 2 with h | h
  · have : k = 0 := by omega
    subst this; simpa using ha
  · have hn : (0 : ℝ) < n - 1 := by
      have : (2 : ℝ) ≤ n := by exact_mod_cast h
      linarith
    have hk' : (k : ℝ) ≤ n - 1 := by
      have : (k : ℝ) + 1 ≤ n := by exact_mod_cast hk
      linarith
    have e : a + k * ((b - a) / (n - 1)) = a * (1 - k / (n - 1)) + b * (k / (n - 1)) := by field_simp; ring
    rw [e]
    have : (k : ℝ) / (n - 1) ≤ 1 := (div_le_one hn).2 hk'
    have h0 : 0 ≤ (k : ℝ) / (n - 1) := div_nonneg (Nat.cast_nonneg k) hn.le
    have := mul_nonneg ha (sub_nonneg.2 this)
    have := mul_nonneg hb h0
    linarith

theorem rayRows_length (f : ℝ → ℝ) (x0 a b : ℝ) (n : ℕ) : (rayRows f x0 a b n).length = n := by simp [rayRows]

/-- row `k` of a ray: its position is on the side of the event, at the radius of the sampling, and its time is given by the ray -/
theorem rayRows_get (f : ℝ → ℝ) (x0 : ℝ) {a b : ℝ} (ha : 0 ≤ a) (hb : 0 ≤ b) {n k : ℕ} (hk : k < n) :
    ∃ x, (rayRows f x0 a b n)[k]? = some (some (x, f |x|)) ∧ 0 ≤ x0 * x ∧ |x| = linspaceR a b n k := by
  have h0 := linspaceR_nonneg ha hb hk
  refine ⟨copysign (linspaceR a b n k) x0, ?_, copysign_same _ _, by rw [copysign_abs, abs_of_nonneg h0]⟩
  rw [copysign_abs, abs_of_nonneg h0]
  simp [rayRows, hk]

/-- the two orders of the axes -/
theorem bhCone_polygon (rS : ℝ) (metric : BHMetric) (d0 d1 : ℕ) (hd : (d0 = 0 ∧ d1 = 1) ∨ (d0 = 1 ∧ d1 = 0)) (n : ℤ) (o : Point) (ts : ℝ) :
    bhCone rS metric [d0, d1] n o ts = .ok (some (.polygon ((match metric with
      | .schwarzschild => sXT rS ts (o 0) (o 1) (coneSampling n)
      | .eddingtonFinkelstein => efXT rS ts (o 0) (o 1) (coneSampling n)).map (Option.map (fun p : ℝ × ℝ => if d0 = 0 then p.swap else p))))) := by
  rcases hd with ⟨rfl, rfl⟩ | ⟨rfl, rfl⟩
  · have h : coneTimeAxis [0, 1] = 0 := by decide
    cases metric <;> simp [bhCone, baseCone, h] <;> intro a _ <;> cases a <;> rfl
  · have h : coneTimeAxis [1, 0] = 1 := by decide
    cases metric <;> simp [bhCone, baseCone, h]

/-! ## Eddington–Finkelstein -/

/-- **C85, Eddington–Finkelstein.** For an event off the horizon, the polygon begins with a sampled part of the outgoing light ray, from the event to about the time slice: its corners
are the earliest (outside) or latest (inside) times of the causal future, the latest (outside) or earliest (inside) times of the causal past, at their positions.  Then follows the
point of the ingoing light ray at the time slice, or, if the ray has reached the singularity before, the last time drawn and the time of arrival at the singularity. -/
theorem C85_EF (junk : ℕ → Option (ℝ × ℝ)) (sgn : ℝ) {rS : ℝ} (hS : 1 / 10 ^ 6 ≤ rS) (d0 d1 : ℕ) (hd : (d0 = 0 ∧ d1 = 1) ∨ (d0 = 1 ∧ d1 = 0)) (n : ℤ) (o : Point) (ho : |o 1| ≠ rS) (ts : ℝ) :
    let fut := futureTimes (causalityBH .eddingtonFinkelstein rS) o
    let past := pastTimes (causalityBH .eddingtonFinkelstein rS) o
    ∃ (rows : List (ℝ × ℝ)) (rOut T : ℝ), coneGeom junk (.blackHole rS .eddingtonFinkelstein) [d0, d1] sgn n o ts = .ok (some (.polygon (rows.map (fun p => some (if d0 = 0 then p.swap else p))))) ∧
      T ≤ ts ∧ (T = ts ∨ (|o 1| < rS ∧ IsGreatest (fut 0) T)) ∧
      ApproxRoot rS (fun r => r - |o 1| + o 0 + 2 * rS * Real.log |(r - rS) / (|o 1| - rS)|) (fun r => 1 + 2 * rS / (r - rS)) T rOut ∧
      (∀ k < coneSampling n, ∃ x t, rows[k]? = some (x, t) ∧ 0 ≤ o 1 * x ∧ |x| = |o 1| + k * ((rOut - |o 1|) / (coneSampling n - 1)) ∧ (k = 0 → x = o 1 ∧ t = o 0) ∧ (|x| ≠ rS →
        (rS < |o 1| → |o 1| ≤ |x| → IsLeast (fut x) t) ∧ (|o 1| < rS → |x| ≤ |o 1| → IsGreatest (fut x) t) ∧
        (rS < |o 1| → rS < |x| → |x| ≤ |o 1| → IsGreatest (past x) t) ∧ (|o 1| < rS → |o 1| ≤ |x| → |x| < rS → IsLeast (past x) t))) ∧
      (ts ≤ o 0 + |o 1| → ∃ x, rows.drop (coneSampling n) = [(x, ts)] ∧ |x| = o 0 + |o 1| - ts ∧ 0 ≤ o 1 * x ∧
        (|x| ≠ rS → (o 0 ≤ ts → IsLeast (fut x) ts) ∧ (ts ≤ o 0 → IsGreatest (past x) ts))) ∧
      (o 0 + |o 1| < ts → rows.drop (coneSampling n) = [(0, T), (0, o 0 + |o 1|)] ∧ T ∈ fut 0 ∧ IsLeast (fut 0) (o 0 + |o 1|)) := by
  intro fut past
  have hS0 : 0 < rS := lt_of_lt_of_le (by positivity) hS
  have h00 : |(0 : ℝ)| ≠ rS := by rw [abs_zero]; exact hS0.ne
  have hsame0 : 0 ≤ o 1 * 0 := by simp
  set f := lightEF rS (o 0) |o 1| false with hf
  set T := if |o 1| < rS then min ts (f 0) else ts with hT
  set rOut := if |o 1| < rS then newtonDefault f (lightEFd rS) |o 1| T (some 0) (some rS) else newtonDefault f (lightEFd rS) (1.5 * rS) T (some rS) none with hrO
  have hroot : ApproxRoot rS f (lightEFd rS) T rOut := by
    rw [hrO]; split
    · exact newtonDefault_root _ _ _ _ _ _ _ (Or.inl rfl) (Or.inr rfl)
    · exact newtonDefault_root _ _ _ _ _ _ _ (Or.inr rfl) (Or.inl rfl)
  have hpos : 0 ≤ rOut := by
    rw [hrO]; split
    · exact newtonDefault_nonneg _ _ _ _ _ hS _ _ (Or.inl rfl) (Or.inr ⟨rfl, rfl⟩)
    · exact newtonDefault_nonneg _ _ _ _ _ hS _ _ (Or.inr rfl) (Or.inl rfl)
  have hXT : efXT rS ts (o 0) (o 1) (coneSampling n) = rayRows f (o 1) |o 1| rOut (coneSampling n) ++
      (if o 0 - ts + |o 1| < 0 then [some (0, T), some (0, o 0 + |o 1|)] else [some (copysign 1 (o 1) * (o 0 - ts + |o 1|), T)]) := by
    unfold efXT
    simp only [test, decide_eq_true_eq, ho, if_false]
    rfl
  have hTle : T ≤ ts := by rw [hT]; split; exacts [min_le_left _ _, le_rfl]
  have hTor : T = ts ∨ (|o 1| < rS ∧ IsGreatest (fut 0) T) := by
    by_cases hin : |o 1| < rS
    · rcases le_total ts (f 0) with h | h
      · left; rw [hT, if_pos hin, min_eq_left h]
      · right
        have := (EF_ray hS0 ho h00 hsame0).2.1 hin (by simp)
        refine ⟨hin, ?_⟩
        rw [hT, if_pos hin, min_eq_right h]
        simpa using this
    · left; rw [hT, if_neg hin]
  set tail : List (ℝ × ℝ) := if o 0 - ts + |o 1| < 0 then [(0, T), (0, o 0 + |o 1|)] else [(copysign 1 (o 1) * (o 0 - ts + |o 1|), T)] with htail
  set ray : List (ℝ × ℝ) := (List.range (coneSampling n)).map (fun k => (copysign (linspaceR |o 1| rOut (coneSampling n) k) (o 1), f (linspaceR |o 1| rOut (coneSampling n) k))) with hray
  have hlen : ray.length = coneSampling n := by simp [hray]
  have hraysome : rayRows f (o 1) |o 1| rOut (coneSampling n) = ray.map some := by simp [rayRows, hray]
  have hearliest := (EF_in hS0 ho h00 hsame0).1 (by simp)
  rw [abs_zero, sub_zero] at hearliest
  refine ⟨ray ++ tail, rOut, T, ?_, hTle, hTor, ?_, ?_, ?_, ?_⟩
  · unfold coneGeom; dsimp only
    rw [bhCone_polygon rS _ d0 d1 hd]
    dsimp only
    have e : (if o 0 - ts + |o 1| < 0 then [some (0, T), some (0, o 0 + |o 1|)] else [some (copysign 1 (o 1) * (o 0 - ts + |o 1|), T)]) = tail.map some := by
      rw [htail]; split <;> rfl
    rw [hXT, hraysome, e, ← List.map_append, List.map_map]
    rfl
  · exact hroot
  · intro k hk
    obtain ⟨x, hx1, hx2, hx3⟩ := rayRows_get f (o 1) (abs_nonneg (o 1)) hpos hk
    refine ⟨x, f |x|, ?_, hx2, hx3, ?_, ?_⟩
    · rw [List.getElem?_append_left (by omega)]
      rw [hraysome, List.getElem?_map] at hx1
      rcases h : ray[k]? with _ | v
      · rw [h] at hx1; simp at hx1
      · rw [h] at hx1; simpa using hx1
    · rintro rfl
      have e : |x| = |o 1| := by rw [hx3]; simp [linspaceR]
      constructor
      · rcases abs_eq_abs.1 e with h | h
        · exact h
        · rw [h] at hx2
          have : o 1 = 0 := by nlinarith [mul_self_nonneg (o 1)]
          rw [h, this]; simp
      · rw [e, hf, lightEF_out hS0 _ ho ho]; ring
    · intro hx
      obtain ⟨e1, e2, e3, e4⟩ := EF_ray hS0 ho hx hx2
      exact ⟨e1, e2, fun _ => e3, fun _ => e4⟩
  · intro hle
    have hTts : T = ts := by
      rcases hTor with h | ⟨-, h⟩
      · exact h
      · exact le_antisymm hTle (hle.trans (h.2 hearliest.1))
    have hr : 0 ≤ o 0 - ts + |o 1| := by linarith
    refine ⟨copysign 1 (o 1) * (o 0 - ts + |o 1|), ?_, ?_, ?_, ?_⟩
    · rw [List.drop_left' hlen, htail, if_neg (by linarith), hTts]
    · rw [abs_mul, copysign_abs, abs_one, one_mul, abs_of_nonneg hr]; ring
    · rw [← mul_assoc]; exact mul_nonneg (copysign_same _ _) hr
    · intro hx
      have hab : |copysign 1 (o 1) * (o 0 - ts + |o 1|)| = o 0 - ts + |o 1| := by rw [abs_mul, copysign_abs, abs_one, one_mul, abs_of_nonneg hr]
      obtain ⟨e1, e2⟩ := EF_in hS0 ho hx (by rw [← mul_assoc]; exact mul_nonneg (copysign_same _ _) hr)
      rw [hab] at e1 e2
      have e : o 0 + |o 1| - (o 0 - ts + |o 1|) = ts := by ring
      rw [e] at e1 e2
      exact ⟨fun h => e1 (by linarith), fun h => e2 (by linarith)⟩
  · intro hlt
    refine ⟨?_, ?_, hearliest⟩
    · rw [List.drop_left' hlen, htail, if_pos (by linarith)]
    · rcases hTor with h | ⟨-, h⟩
      · rw [h]
        refine (EF_future_mem hS0 ho h00 hsame0 ts).2 ⟨by rw [abs_zero]; linarith, fun hin => ⟨by simp, ?_⟩, fun _ h => absurd h (by rw [abs_zero]; linarith)⟩
        have h2 : ts ≤ f 0 := by rw [← h, hT, if_pos hin]; exact min_le_right _ _
        rw [hf, lightEF_out hS0 _ ho (by simpa using h00)] at h2
        rw [abs_zero]; linarith
      · exact h.1

/-! ## Schwarzschild -/

noncomputable def rayPts (f : ℝ → ℝ) (x0 a b : ℝ) (n : ℕ) : List (ℝ × ℝ) :=
  (List.range n).map (fun k => (copysign (linspaceR a b n k) x0, f (linspaceR a b n k)))

theorem rayRows_pts (f : ℝ → ℝ) (x0 a b : ℝ) (n : ℕ) : rayRows f x0 a b n = (rayPts f x0 a b n).map some := by simp [rayRows, rayPts]

theorem rayPts_length (f : ℝ → ℝ) (x0 a b : ℝ) (n : ℕ) : (rayPts f x0 a b n).length = n := by simp [rayPts]

theorem rayPts_get (f : ℝ → ℝ) (x0 : ℝ) {a b : ℝ} (ha : 0 ≤ a) (hb : 0 ≤ b) {n k : ℕ} (hk : k < n) :
    let x := copysign (linspaceR a b n k) x0
    (rayPts f x0 a b n)[k]? = some (x, f |x|) ∧ 0 ≤ x0 * x ∧ |x| = a + k * ((b - a) / (n - 1)) := by
  have h0 := linspaceR_nonneg ha hb hk
  dsimp only
  refine ⟨?_, copysign_same _ _, by rw [copysign_abs, abs_of_nonneg h0]; rfl⟩
  rw [copysign_abs, abs_of_nonneg h0]
  simp [rayPts, hk]

/-- **C85, Schwarzschild, future of an event inside the horizon.** The polygon runs along the latest times of the causal future from the event to the singularity and along the earliest
times back to the event (whatever the time slice is). -/
theorem C85_S_inside_future (junk : ℕ → Option (ℝ × ℝ)) (sgn : ℝ) {rS : ℝ} (hS : 0 < rS) (d0 d1 : ℕ) (hd : (d0 = 0 ∧ d1 = 1) ∨ (d0 = 1 ∧ d1 = 0)) (n : ℤ) (o : Point) (ho : |o 1| < rS) (ts : ℝ) (hts : o 0 < ts) :
    let fut := futureTimes (causalityBH .schwarzschild rS) o
    let m := coneSampling n
    ∃ (rows : List (ℝ × ℝ)), coneGeom junk (.blackHole rS .schwarzschild) [d0, d1] sgn n o ts = .ok (some (.polygon (rows.map (fun p => some (if d0 = 0 then p.swap else p))))) ∧ rows.length = 2 * m ∧
      ∀ k < m, ∃ x t t', rows[k]? = some (x, t) ∧ rows[2 * m - 1 - k]? = some (x, t') ∧ 0 ≤ o 1 * x ∧ |x| = |o 1| + k * ((0 - |o 1|) / (m - 1)) ∧
        IsGreatest (fut x) t ∧ IsLeast (fut x) t' := by
  intro fut m
  set A := rayPts (lightS rS (o 0) |o 1| false) (o 1) |o 1| 0 m with hA
  set B := rayPts (lightS rS (o 0) |o 1| true) (o 1) |o 1| 0 m with hB
  have lA : A.length = m := rayPts_length _ _ _ _ _
  have lB : B.length = m := rayPts_length _ _ _ _ _
  refine ⟨A ++ B.reverse, ?_, by rw [List.length_append, List.length_reverse, lA, lB]; omega, ?_⟩
  · unfold coneGeom; dsimp only
    rw [bhCone_polygon rS _ d0 d1 hd]
    dsimp only
    have e : sXT rS ts (o 0) (o 1) (coneSampling n) = (A ++ B.reverse).map some := by
      unfold sXT
      simp only [test, decide_eq_true_eq, ho.ne, if_false, ho, if_true, gt_iff_lt, hts, rayRows_pts, List.map_append, List.map_reverse]
      rfl
    rw [e, List.map_map]
    rfl
  · intro k hk
    obtain ⟨a1, a2, a3⟩ := rayPts_get (lightS rS (o 0) |o 1| false) (o 1) (abs_nonneg (o 1)) le_rfl hk
    obtain ⟨b1, -, -⟩ := rayPts_get (lightS rS (o 0) |o 1| true) (o 1) (abs_nonneg (o 1)) le_rfl hk
    set x := copysign (linspaceR |o 1| 0 m k) (o 1)
    have hle : |x| ≤ |o 1| := by
      rw [a3]
      have : (0 - |o 1|) / ((m : ℝ) - 1) ≤ 0 := by
        apply div_nonpos_of_nonpos_of_nonneg (by simp)
        have : (1 : ℝ) ≤ m := by exact_mod_cast (by omega : 1 ≤ m)
        linarith
      nlinarith [(Nat.cast_nonneg k : (0 : ℝ) ≤ k)]
    obtain ⟨e1, e2⟩ := (S_ray hS ho.ne (by linarith : |x| < rS).ne a2).2.2.1 ho hle
    refine ⟨x, _, _, ?_, ?_, a2, a3, e1, e2⟩
    · rw [List.getElem?_append_left (by omega)]; exact a1
    · rw [List.getElem?_append_right (by omega), List.getElem?_reverse (by omega), lA, lB, show m - 1 - (2 * m - 1 - k - m) = k by omega]
      exact b1

/-- **C85, Schwarzschild, past of an event inside the horizon.** The polygon consists of two light rays through the event: one along the latest times of the causal past (beginning
outside the horizon where Newton's method finds the time slice), one along its earliest times. -/
theorem C85_S_inside_past (junk : ℕ → Option (ℝ × ℝ)) (sgn : ℝ) {rS : ℝ} (hS : 1 / 10 ^ 6 ≤ rS) (d0 d1 : ℕ) (hd : (d0 = 0 ∧ d1 = 1) ∨ (d0 = 1 ∧ d1 = 0)) (n : ℤ) (o : Point) (ho : |o 1| < rS) (ts : ℝ) (hts : ts < o 0) :
    let past := pastTimes (causalityBH .schwarzschild rS) o
    let m := coneSampling n
    ∃ (rows : List (ℝ × ℝ)) (rOut rIn : ℝ), coneGeom junk (.blackHole rS .schwarzschild) [d0, d1] sgn n o ts = .ok (some (.polygon (rows.map (fun p => some (if d0 = 0 then p.swap else p))))) ∧
      rows.length = 2 * m ∧
      ApproxRoot rS (fun r => |o 1| - r + o 0 - rS * Real.log |(r - rS) / (|o 1| - rS)|) (fun r => -1 - rS / (r - rS)) ts rOut ∧
      ApproxRoot rS (fun r => r - |o 1| + o 0 + rS * Real.log |(r - rS) / (|o 1| - rS)|) (fun r => 1 + rS / (r - rS)) ts rIn ∧
      (∀ k < m, ∃ x t, rows[k]? = some (x, t) ∧ 0 ≤ o 1 * x ∧ |x| = rOut + k * ((|o 1| - rOut) / (m - 1)) ∧ (|x| ≠ rS → |o 1| ≤ |x| → IsGreatest (past x) t)) ∧
      (∀ k < m, ∃ x t, rows[m + k]? = some (x, t) ∧ 0 ≤ o 1 * x ∧ |x| = |o 1| + k * ((rIn - |o 1|) / (m - 1)) ∧ (|o 1| ≤ |x| → |x| < rS → IsLeast (past x) t)) := by
  intro past m
  have hS0 : 0 < rS := lt_of_lt_of_le (by positivity) hS
  set rOut := newtonDefault (lightS rS (o 0) |o 1| true) (lightSd rS true) |o 1| ts (some rS) none with hO
  set rIn := newtonDefault (lightS rS (o 0) |o 1| false) (lightSd rS false) |o 1| ts (some 0) (some rS) with hI
  have pO : 0 ≤ rOut := newtonDefault_nonneg _ _ _ _ _ hS _ _ (Or.inr rfl) (Or.inl rfl)
  have pI : 0 ≤ rIn := newtonDefault_nonneg _ _ _ _ _ hS _ _ (Or.inl rfl) (Or.inr ⟨rfl, rfl⟩)
  set A := rayPts (lightS rS (o 0) |o 1| true) (o 1) rOut |o 1| m with hA
  set B := rayPts (lightS rS (o 0) |o 1| false) (o 1) |o 1| rIn m with hB
  have lA : A.length = m := rayPts_length _ _ _ _ _
  have lB : B.length = m := rayPts_length _ _ _ _ _
  refine ⟨A ++ B, rOut, rIn, ?_, by rw [List.length_append, lA, lB]; omega, ?_, ?_, ?_, ?_⟩
  · unfold coneGeom; dsimp only
    rw [bhCone_polygon rS _ d0 d1 hd]
    dsimp only
    have e : sXT rS ts (o 0) (o 1) (coneSampling n) = (A ++ B).map some := by
      unfold sXT
      simp only [test, decide_eq_true_eq, ho.ne, if_false, ho, if_true, gt_iff_lt, not_lt.2 hts.le, rayRows_pts, List.map_append]
      rfl
    rw [e, List.map_map]
    rfl
  · exact newtonDefault_root _ _ _ _ _ _ _ (Or.inr rfl) (Or.inl rfl)
  · exact newtonDefault_root _ _ _ _ _ _ _ (Or.inl rfl) (Or.inr rfl)
  · intro k hk
    obtain ⟨a1, a2, a3⟩ := rayPts_get (lightS rS (o 0) |o 1| true) (o 1) pO (abs_nonneg (o 1)) hk
    refine ⟨_, _, ?_, a2, a3, fun h h' => (S_ray hS0 ho.ne h a2).2.2.2.2.1 h'⟩
    rw [List.getElem?_append_left (by omega)]; exact a1
  · intro k hk
    obtain ⟨a1, a2, a3⟩ := rayPts_get (lightS rS (o 0) |o 1| false) (o 1) (abs_nonneg (o 1)) pI hk
    refine ⟨_, _, ?_, a2, a3, fun h h' => (S_ray hS0 ho.ne h'.ne a2).2.2.2.2.2 h h'⟩
    rw [List.getElem?_append_right (by omega), lA, show m + k - m = k by omega]; exact a1

/-- **C85, Schwarzschild, events outside the horizon.** The polygon begins with two light rays through the event: along the earliest times of the causal future or the latest times of
the causal past.  A second part inside the horizon follows if and only if an event at the singularity is in the causal future before the time slice: it runs along the earliest times
of the causal future and ends at the singularity at the time slice. -/
theorem C85_S_outside (junk : ℕ → Option (ℝ × ℝ)) (sgn : ℝ) {rS : ℝ} (hS : 1 / 10 ^ 6 ≤ rS) (d0 d1 : ℕ) (hd : (d0 = 0 ∧ d1 = 1) ∨ (d0 = 1 ∧ d1 = 0)) (n : ℤ) (o : Point) (ho : rS < |o 1|) (ts : ℝ) :
    let fut := futureTimes (causalityBH .schwarzschild rS) o
    let past := pastTimes (causalityBH .schwarzschild rS) o
    let m := coneSampling n
    let outgoing := fun r => r - |o 1| + o 0 + rS * Real.log |(r - rS) / (|o 1| - rS)|
    let ingoing := fun r => |o 1| - r + o 0 - rS * Real.log |(r - rS) / (|o 1| - rS)|
    ∃ (outer : List (ℝ × ℝ)) (inner : List (Option (ℝ × ℝ))) (rOut rIn : ℝ),
      coneGeom junk (.blackHole rS .schwarzschild) [d0, d1] sgn n o ts = .ok (some (.polygon ((outer.map some ++ inner).map (Option.map (fun p => if d0 = 0 then p.swap else p))))) ∧
      outer.length = 2 * m ∧ ApproxRoot rS outgoing (fun r => 1 + rS / (r - rS)) ts rOut ∧ ApproxRoot rS ingoing (fun r => -1 - rS / (r - rS)) ts rIn ∧
      (∀ k < m, ∃ x t, outer[k]? = some (x, t) ∧ 0 ≤ o 1 * x ∧ |x| = |o 1| + k * ((rOut - |o 1|) / (m - 1)) ∧
        (|o 1| ≤ |x| → IsLeast (fut x) t) ∧ (rS < |x| → |x| ≤ |o 1| → IsGreatest (past x) t)) ∧
      (∀ k < m, ∃ x t, outer[m + k]? = some (x, t) ∧ 0 ≤ o 1 * x ∧ |x| = rIn + k * ((|o 1| - rIn) / (m - 1)) ∧
        (|x| ≠ rS → |x| ≤ |o 1| → IsLeast (fut x) t) ∧ (|o 1| ≤ |x| → IsGreatest (past x) t)) ∧
      (¬ (o 0 < ts ∧ ∃ s ∈ fut 0, s < ts) → inner = []) ∧
      ((o 0 < ts ∧ ∃ s ∈ fut 0, s < ts) → ∃ (pts : List (ℝ × ℝ)) (rIn' : ℝ), inner = none :: (pts ++ [(0, ts)]).map some ∧ pts.length = m ∧ ts ∈ fut 0 ∧
        ApproxRoot rS ingoing (fun r => -1 - rS / (r - rS)) ts rIn' ∧
        ∀ k < m, ∃ x t, pts[k]? = some (x, t) ∧ 0 ≤ o 1 * x ∧ |x| = rIn' + k * ((0 - rIn') / (m - 1)) ∧ (|x| < rS → IsLeast (fut x) t)) := by
  intro fut past m outgoing ingoing
  have hS0 : 0 < rS := lt_of_lt_of_le (by positivity) hS
  have h00 : |(0 : ℝ)| ≠ rS := by rw [abs_zero]; exact hS0.ne
  have hleast : IsLeast (fut 0) (lightS rS (o 0) |o 1| true 0) := by
    have := (S_ray hS0 ho.ne' h00 (by simp : 0 ≤ o 1 * 0)).2.1 ho (by simp)
    simpa using this
  have hcond : (∃ s ∈ fut 0, s < ts) ↔ lightS rS (o 0) |o 1| true 0 < ts :=
    ⟨fun ⟨s, h1, h2⟩ => lt_of_le_of_lt (hleast.2 h1) h2, fun h => ⟨_, hleast.1, h⟩⟩
  set rOut := newtonDefault (lightS rS (o 0) |o 1| false) (lightSd rS false) |o 1| ts (some rS) none with hO
  set rIn := newtonDefault (lightS rS (o 0) |o 1| true) (lightSd rS true) |o 1| ts (some rS) none with hI
  set rIn' := newtonDefault (lightS rS (o 0) |o 1| true) (lightSd rS true) (rS / 2) ts (some 0) (some rS) with hI'
  have pO : 0 ≤ rOut := newtonDefault_nonneg _ _ _ _ _ hS _ _ (Or.inr rfl) (Or.inl rfl)
  have pI : 0 ≤ rIn := newtonDefault_nonneg _ _ _ _ _ hS _ _ (Or.inr rfl) (Or.inl rfl)
  have pI' : 0 ≤ rIn' := newtonDefault_nonneg _ _ _ _ _ hS _ _ (Or.inl rfl) (Or.inr ⟨rfl, rfl⟩)
  set A := rayPts (lightS rS (o 0) |o 1| false) (o 1) |o 1| rOut m with hA
  set B := rayPts (lightS rS (o 0) |o 1| true) (o 1) rIn |o 1| m with hB
  set D := rayPts (lightS rS (o 0) |o 1| true) (o 1) rIn' 0 m with hD
  have lA : A.length = m := rayPts_length _ _ _ _ _
  have lB : B.length = m := rayPts_length _ _ _ _ _
  refine ⟨A ++ B, if lightS rS (o 0) |o 1| true 0 < ts ∧ o 0 < ts then none :: (D ++ [(0, ts)]).map some else [], rOut, rIn, ?_,
    by rw [List.length_append, lA, lB]; omega, ?_, ?_, ?_, ?_, ?_, ?_⟩
  · unfold coneGeom; dsimp only
    rw [bhCone_polygon rS _ d0 d1 hd]
    dsimp only
    congr 4
    unfold sXT
    simp only [test, decide_eq_true_eq, ho.ne', if_false, not_lt.2 ho.le, rayRows_pts, List.map_append]
    split_ifs
    · simp only [List.append_assoc, List.cons_append, List.nil_append]; rfl
    · simp only [List.append_nil]; rfl
  · exact newtonDefault_root _ _ _ _ _ _ _ (Or.inr rfl) (Or.inl rfl)
  · exact newtonDefault_root _ _ _ _ _ _ _ (Or.inr rfl) (Or.inl rfl)
  · intro k hk
    obtain ⟨a1, a2, a3⟩ := rayPts_get (lightS rS (o 0) |o 1| false) (o 1) (abs_nonneg (o 1)) pO hk
    refine ⟨_, _, ?_, a2, a3, fun h => (S_ray hS0 ho.ne' (by linarith : rS < _).ne' a2).1 ho h, fun h h' => (S_ray hS0 ho.ne' h.ne' a2).2.2.2.1 h h'⟩
    rw [List.getElem?_append_left (by omega)]; exact a1
  · intro k hk
    obtain ⟨a1, a2, a3⟩ := rayPts_get (lightS rS (o 0) |o 1| true) (o 1) pI (abs_nonneg (o 1)) hk
    refine ⟨_, _, ?_, a2, a3, fun h h' => (S_ray hS0 ho.ne' h a2).2.1 ho h', fun h => (S_ray hS0 ho.ne' (by linarith : rS < _).ne' a2).2.2.2.2.1 h⟩
    rw [List.getElem?_append_right (by omega), lA, show m + k - m = k by omega]; exact a1
  · intro h
    rw [hcond] at h
    exact if_neg fun h' => h ⟨h'.2, h'.1⟩
  · intro h
    rw [hcond] at h
    refine ⟨D, rIn', if_pos ⟨h.2, h.1⟩, rayPts_length _ _ _ _ _, ?_, newtonDefault_root _ _ _ _ _ _ _ (Or.inl rfl) (Or.inr rfl), ?_⟩
    · refine (S_future_mem hS0 ho.ne' h00 (by simp) ts).2 ⟨fun h => absurd h (by linarith), fun _ _ => ?_, fun _ h => absurd h (by rw [abs_zero]; linarith)⟩
      have := h.2
      rw [(lightS_out hS0 (o 0) ho.ne' hS0.ne).2] at this
      rw [abs_zero]; linarith
    · intro k hk
      obtain ⟨a1, a2, a3⟩ := rayPts_get (lightS rS (o 0) |o 1| true) (o 1) pI' le_rfl hk
      exact ⟨_, _, a1, a2, a3, fun h' => (S_ray hS0 ho.ne' h'.ne a2).2.1 ho (by linarith)⟩

/-! ## Cones that are not implemented -/

/-- **C85, not implemented.** No cone is ever drawn for the base class or for anti-de Sitter spacetime, nor for a black hole over two spatial axes or in three dimensions: the call raises
NotImplementedError (for anti-de Sitter spacetime in two dimensions it returns None for positions beyond the radius). -/
theorem C85_not_implemented (junk : ℕ → Option (ℝ × ℝ)) (n : ℤ) (o : Point) (ts sgn : ℝ) (dims : List ℕ) (hlen : dims.length = 2 ∨ dims.length = 3) :
    coneGeom junk .base dims sgn n o ts = .error .notImplementedError ∧
    (∀ d a, coneGeom junk (.antiDeSitter d a) dims sgn n o ts = .error .notImplementedError ∨
      (d = 2 ∧ |o 1 / a| ≥ 1 ∧ coneGeom junk (.antiDeSitter d a) dims sgn n o ts = .ok none)) ∧
    (∀ r m, dims.length = 3 ∨ 0 ∉ dims → coneGeom junk (.blackHole r m) dims sgn n o ts = .error .notImplementedError) := by
  have hm : 1 ≤ coneSampling n := by unfold coneSampling; split_ifs <;> omega
  have hmap : ∀ {β : Type} , (List.range (coneSampling n)).mapM (fun _ => (.error .notImplementedError : Except Err β)) = .error .notImplementedError := by
    intro β
    obtain ⟨j, hj⟩ : ∃ j, coneSampling n = j + 1 := ⟨coneSampling n - 1, by omega⟩
    rw [hj, List.range_succ_eq_map, List.mapM_cons]
    rfl
  match dims, hlen with
  | [a, b], _ =>
    refine ⟨?_, ?_, ?_⟩
    · simp only [coneGeom, baseCone]; split <;> rfl
    · intro d al
      simp only [coneGeom, adSCone, baseCone]
      by_cases h : d = 2 ∧ |o 1 / al| ≥ 1
      · by_cases hc : coneTimeAxis [a, b] < 0
        · left; simp [hc]
        · right; exact ⟨h.1, h.2, by simp [hc, h, test]⟩
      · left
        have h' : ¬ (d = 2 ∧ test (|o 1 / al| ≥ 1) = true) := by simpa [test] using h
        simp only [h', if_false]; split <;> rfl
    · intro r m h
      have : coneTimeAxis [a, b] < 0 := by
        rcases h with h | h
        · simp at h
        · simp only [List.mem_cons, List.not_mem_nil, or_false, not_or] at h
          have h1 : (a == 0) = false := by simpa using fun e : a = 0 => h.1 e.symm
          have h2 : (b == 0) = false := by simpa using fun e : b = 0 => h.2 e.symm
          simp [coneTimeAxis, List.idxOf?, List.findIdx?_cons, h1, h2]
      simp [coneGeom, bhCone, baseCone, this]
  | [a, b, c], _ =>
    refine ⟨?_, ?_, ?_⟩
    · simp only [coneGeom, baseCone, hmap]; split <;> rfl
    · intro d al; left
      simp only [coneGeom, adSCone, baseCone, hmap]; split <;> rfl
    · intro r m _
      simp only [coneGeom, bhCone, baseCone, hmap]; split <;> rfl

/-! ## The hypotheses can be met -/

/-- Newton's method may converge at once: for `r_S = 1`, the outgoing ray of the event at the time 0 and the radius 5/4 reaches the radius 3/2 (where the method starts) at a time
after 0. -/
example : ∃ ts > 0, newtonDefault (lightEF 1 0 (5 / 4) false) (lightEFd 1) (1.5 * 1) ts (some 1) none = 3 / 2 := by
  refine ⟨lightEF 1 0 (5 / 4) false (3 / 2), ?_, ?_⟩
  · rw [lightEF_out one_pos 0 (by norm_num) (by norm_num)]
    have := rayTime_strictMono (k := 2) (by norm_num) one_pos (by norm_num : (1 : ℝ) < 5 / 4) (by norm_num : (5 / 4 : ℝ) < 3 / 2)
    linarith
  · have hs : NewtonStops (lightEF 1 0 (5 / 4) false) (lightEFd 1) (lightEF 1 0 (5 / 4) false (3 / 2)) (some 1) none (1 / 10 ^ 6) (1.5 * 1) 0 := by
      refine ⟨fun j hj => ?_, ?_, fun j hj => absurd hj (by omega)⟩
      · have : j = 0 := by omega
        subst this
        norm_num [lightEFd]
      · have : ¬ ∃ hi : ℝ, (none : Option ℝ) = some hi ∧ hi < 3 / 2 := by rintro ⟨_, h, -⟩; simp at h
        norm_num [newtonStep, this]
    unfold newtonDefault
    rw [(C51_result _ _ _ _ _ _ _ _ _).1 0 (by norm_num) hs]
    have : ∀ x : ℝ, (none : Option ℝ) = some x → 3 / 2 ≤ x := fun _ h => by simp at h
    norm_num [newtonStep]
    exact this

/-- at the radius 3/2 this is the earliest time of the causal future -/
example : IsLeast (futureTimes (causalityBH .eddingtonFinkelstein 1) (evt 0 (5 / 4)) (3 / 2)) (lightEF 1 0 (5 / 4) false (3 / 2)) := by
  have := (EF_ray (rS := 1) (o := evt 0 (5 / 4)) (x := 3 / 2) one_pos (by norm_num [evt, abs_of_pos]) (by norm_num [abs_of_pos]) (by norm_num [evt])).1
    (by norm_num [evt, abs_of_pos]) (by norm_num [evt, abs_of_pos])
  simpa [evt, abs_of_pos] using this

end Causets
