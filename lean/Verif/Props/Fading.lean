import Verif.Model.Plotting
import Mathlib.Analysis.Complex.ExponentialBounds
import Mathlib.Tactic

/-! # C58, C74 — fading functions of the plots (causetplotting.py:293-323) -/

namespace Causets

theorem heaviside1_neg {x : ℝ} (h : x < 0) : heaviside1 x = 0 := if_pos h
theorem heaviside1_nonneg {x : ℝ} (h : 0 ≤ x) : heaviside1 x = 1 := if_neg (not_lt.2 h)

/-- the three functions for `timedepth ≠ 0` -/
theorem dynamicParameter_linear (dim : ℕ) {d : ℝ} (hd : d ≠ 0) (m : ℝ) :
    dynamicParameter "linear" dim d m = some (fun v => heaviside1 ((SignType.sign d : ℝ) * v) * m * (-1 / d * v + 1)) := by
  simp [dynamicParameter, hd]

theorem dynamicParameter_exponential (dim : ℕ) {d : ℝ} (hd : d ≠ 0) (m : ℝ) :
    dynamicParameter "exponential" dim d m = some (fun v => heaviside1 ((SignType.sign d : ℝ) * v) * m * Real.exp (-1 / d * v)) := by
  simp [dynamicParameter, hd]

theorem dynamicParameter_intensity (dim : ℕ) (d : ℝ) (m : ℝ) :
    dynamicParameter "intensity" dim d m = some (fun v => heaviside1 ((SignType.sign d : ℝ) * v) * m / (max v 0 + 1) ^ (dim - 1)) := by
  simp [dynamicParameter]

theorem dynamicParameter_isSome (f : String) (dim : ℕ) (d m : ℝ) :
    (dynamicParameter f dim d m).isSome ↔ f = "linear" ∨ f = "exponential" ∨ f = "intensity" := by
  unfold dynamicParameter
  by_cases h1 : f = "linear"
  · simp [h1]
  by_cases h2 : f = "exponential"
  · simp [h2]
  by_cases h3 : f = "intensity"
  · simp [h3]
  simp [h1, h2, h3]

theorem sign_mul_nonneg_iff {d v : ℝ} (hd : d ≠ 0) : 0 ≤ (SignType.sign d : ℝ) * v ↔ 0 ≤ d * v := by
  rcases lt_or_gt_of_ne hd with h | h
  · rw [sign_neg h]; simp only [SignType.coe_neg_one]
    constructor <;> intro h' <;> nlinarith
  · rw [sign_pos h]; simp only [SignType.coe_one]
    constructor <;> intro h'
    · nlinarith
    · nlinarith

theorem sign_mul_neg_iff {d v : ℝ} (hd : d ≠ 0) : (SignType.sign d : ℝ) * v < 0 ↔ d * v < 0 := by
  rw [← not_le, sign_mul_nonneg_iff hd, not_le]

/-- the distance in units of the time depth -/
theorem div_nonneg_of_side {d v : ℝ} (hd : d ≠ 0) (h : 0 ≤ d * v) : v / d = |v| / |d| := by
  rw [← abs_div]
  refine (abs_of_nonneg ?_).symm
  have : v / d = d * v / d ^ 2 := by field_simp
  rw [this]; positivity

/-- **C58, at the time slice.** Every fading function has its maximum value at distance 0 (for every time depth). -/
theorem C58_at_zero (name : String) (dim : ℕ) (d m : ℝ) (f : ℝ → ℝ) (hf : dynamicParameter name dim d m = some f) : f 0 = m := by
  rcases (dynamicParameter_isSome name dim d m).1 (by rw [hf]; rfl) with rfl | rfl | rfl <;>
    simp only [dynamicParameter, String.reduceEq, if_true, if_false, Option.some.injEq] at hf <;> rw [← hf] <;> simp [heaviside1]

/-- **C58, time depth 0.** For the time depth 0 nothing is hidden on either side, and the linear and exponential functions change at the rate of 10^10 per unit of time. -/
theorem C58_zero_depth (dim : ℕ) (m : ℝ) : ∃ f g k : ℝ → ℝ, dynamicParameter "linear" dim 0 m = some f ∧ dynamicParameter "exponential" dim 0 m = some g ∧
    dynamicParameter "intensity" dim 0 m = some k ∧ ∀ v, f v = m * (1 - 10000000000 * v) ∧ g v = m * Real.exp (-(10000000000 * v)) ∧
      k v = m / (max v 0 + 1) ^ (dim - 1) := by
  refine ⟨_, _, _, rfl, rfl, rfl, fun v => ?_⟩
  simp [heaviside1]
  norm_num
  left; ring

/-- **C58, wrong side.** For a positive (negative) time depth nothing to the past (future) of the time slice is visible. -/
theorem C58_wrong_side (name : String) (dim : ℕ) (d m : ℝ) (f : ℝ → ℝ) (hf : dynamicParameter name dim d m = some f) (v : ℝ) (hv : d * v < 0) :
    f v = 0 := by
  have hd : d ≠ 0 := by rintro rfl; simp at hv
  have h0 := heaviside1_neg ((sign_mul_neg_iff hd).2 hv)
  rcases (dynamicParameter_isSome name dim d m).1 (by rw [hf]; rfl) with rfl | rfl | rfl
  · rw [dynamicParameter_linear dim hd] at hf
    rw [← Option.some.inj hf]; simp [h0]
  · rw [dynamicParameter_exponential dim hd] at hf
    rw [← Option.some.inj hf]; simp [h0]
  · rw [dynamicParameter_intensity] at hf
    rw [← Option.some.inj hf]; simp [h0]

/-- **C58, linear.** On the right side of the time slice the function 'linear' decreases linearly from `alpha_max` at the slice to 0 at distance `timedepth`; further
away it is negative (and nothing is drawn). -/
theorem C58_linear (dim : ℕ) (d m : ℝ) (hd : d ≠ 0) (hm : 0 < m) : ∃ f, dynamicParameter "linear" dim d m = some f ∧ f d = 0 ∧
    (∀ v, 0 ≤ d * v → f v = m * (1 - |v| / |d|)) ∧
    (∀ v, 0 ≤ d * v → |v| ≤ |d| → 0 ≤ f v ∧ f v ≤ m) ∧
    (∀ v, 0 ≤ d * v → |d| < |v| → f v < 0) := by
  have key : ∀ v, 0 ≤ d * v → heaviside1 ((SignType.sign d : ℝ) * v) * m * (-1 / d * v + 1) = m * (1 - |v| / |d|) := by
    intro v hv
    rw [heaviside1_nonneg ((sign_mul_nonneg_iff hd).2 hv), ← div_nonneg_of_side hd hv]
    field_simp; ring
  have hd' : 0 < |d| := abs_pos.2 hd
  refine ⟨_, dynamicParameter_linear dim hd m, ?_, key, ?_, ?_⟩
  · rw [key d (mul_self_nonneg d), div_self hd'.ne']; ring
  · intro v hv hvd
    rw [key v hv]
    have h1 : |v| / |d| ≤ 1 := (div_le_one hd').2 hvd
    have h2 : 0 ≤ |v| / |d| := by positivity
    constructor <;> nlinarith
  · intro v hv hvd
    rw [key v hv]
    have h1 : 1 < |v| / |d| := (one_lt_div hd').2 hvd
    nlinarith

/-- **C58, exponential.** On the right side of the time slice the function 'exponential' is positive, at most `alpha_max` and strictly decreasing with the distance. -/
theorem C58_exponential (dim : ℕ) (d m : ℝ) (hd : d ≠ 0) (hm : 0 < m) : ∃ f, dynamicParameter "exponential" dim d m = some f ∧
    (∀ v, 0 ≤ d * v → 0 < f v ∧ f v ≤ m) ∧
    (∀ v w, 0 ≤ d * v → 0 ≤ d * w → |v| < |w| → f w < f v) := by
  have key : ∀ v, 0 ≤ d * v → heaviside1 ((SignType.sign d : ℝ) * v) * m * Real.exp (-1 / d * v) = m * Real.exp (-(|v| / |d|)) := by
    intro v hv
    rw [heaviside1_nonneg ((sign_mul_nonneg_iff hd).2 hv), ← div_nonneg_of_side hd hv, one_mul]
    congr 2; ring
  have hd' : 0 < |d| := abs_pos.2 hd
  refine ⟨_, dynamicParameter_exponential dim hd m, ?_, ?_⟩
  · intro v hv
    rw [key v hv]
    refine ⟨by positivity, ?_⟩
    have : Real.exp (-(|v| / |d|)) ≤ 1 := Real.exp_le_one_iff.2 (by simp only [Left.neg_nonpos_iff]; positivity)
    nlinarith
  · intro v w hv hw hvw
    rw [key v hv, key w hw]
    have : |v| / |d| < |w| / |d| := by gcongr
    have := Real.exp_lt_exp.2 (neg_lt_neg this)
    nlinarith

/-- **C58, intensity.** On the right side of the time slice the function 'intensity' is positive, at most `alpha_max`, and does not increase with the distance; for a
positive time depth and a plot of 2 or 3 dimensions it is strictly decreasing, the value at distance `v` is `alpha_max / (1 + v) ^ (dim - 1)`. -/
theorem C58_intensity (dim : ℕ) (d m : ℝ) (hd : d ≠ 0) (hm : 0 < m) : ∃ f, dynamicParameter "intensity" dim d m = some f ∧
    (∀ v, 0 ≤ d * v → 0 < f v ∧ f v ≤ m) ∧
    (∀ v w, 0 ≤ d * v → 0 ≤ d * w → |v| ≤ |w| → f w ≤ f v) ∧
    (0 < d → ∀ v, 0 ≤ v → f v = m / (1 + v) ^ (dim - 1)) ∧
    (0 < d → 2 ≤ dim → ∀ v w, 0 ≤ v → v < w → f w < f v) := by
  have key : ∀ v, 0 ≤ d * v → heaviside1 ((SignType.sign d : ℝ) * v) * m / (max v 0 + 1) ^ (dim - 1) = m / (max v 0 + 1) ^ (dim - 1) := by
    intro v hv
    rw [heaviside1_nonneg ((sign_mul_nonneg_iff hd).2 hv), one_mul]
  have hge : ∀ v : ℝ, 1 ≤ max v 0 + 1 := fun v => by linarith [le_max_right v 0]
  have hpos : 0 < d → ∀ v, 0 ≤ v → heaviside1 ((SignType.sign d : ℝ) * v) * m / (max v 0 + 1) ^ (dim - 1) = m / (1 + v) ^ (dim - 1) := by
    intro hp v hv
    rw [key v (by positivity), max_eq_left hv, add_comm]
  refine ⟨_, dynamicParameter_intensity dim d m, ?_, ?_, hpos, ?_⟩
  · intro v hv
    rw [key v hv]
    have h1 : (1 : ℝ) ≤ (max v 0 + 1) ^ (dim - 1) := one_le_pow₀ (hge v)
    refine ⟨by positivity, ?_⟩
    exact div_le_self hm.le h1
  · intro v w hv hw hvw
    rw [key v hv, key w hw]
    have hm' : max v 0 ≤ max w 0 := by
      rcases lt_or_gt_of_ne hd with h | h
      · have h1 : v ≤ 0 := by nlinarith
        rw [max_eq_right h1]; exact le_max_right _ _
      · have h1 : 0 ≤ v := by nlinarith
        have h2 : 0 ≤ w := by nlinarith
        rw [abs_of_nonneg h1, abs_of_nonneg h2] at hvw
        exact max_le_max hvw le_rfl
    have h3 : 0 ≤ max v 0 := le_max_right _ _
    gcongr
  · intro hp hdim v w hv hvw
    rw [hpos hp v hv, hpos hp w (by linarith)]
    have : (1 + v) ^ (dim - 1) < (1 + w) ^ (dim - 1) := pow_lt_pow_left₀ (by linarith) (by linarith) (by omega)
    have h1 : (0 : ℝ) < (1 + v) ^ (dim - 1) := by positivity
    exact div_lt_div_of_pos_left hm h1 this

/-- **C58, names.** Exactly the three documented names are implemented. -/
theorem C58_names (name : String) (dim : ℕ) (d m : ℝ) :
    (∃ f, dynamicParameter name dim d m = some f) ↔ name = "linear" ∨ name = "exponential" ∨ name = "intensity" := by
  rw [← dynamicParameter_isSome name dim d m, Option.isSome_iff_exists]

/-- **C74, refuted: half-time.** The documentation says that 'exponential' fading has the half-time `timedepth`; the value at distance `timedepth` is `alpha_max / e`, less than
two fifths of the maximum. -/
theorem C74_half_time_refuted (dim : ℕ) (d m : ℝ) (hd : d ≠ 0) (hm : 0 < m) (f : ℝ → ℝ) (hf : dynamicParameter "exponential" dim d m = some f) :
    f d = m * Real.exp (-1) ∧ f d < 2 / 5 * m ∧ f d ≠ m / 2 := by
  rw [dynamicParameter_exponential dim hd] at hf
  have h : f d = m * Real.exp (-1) := by
    rw [← Option.some.inj hf]
    simp only
    rw [heaviside1_nonneg ((sign_mul_nonneg_iff hd).2 (mul_self_nonneg d)), one_mul]
    congr 2; field_simp
  have h2 : Real.exp (-1) < 2 / 5 := by
    rw [Real.exp_neg, inv_lt_comm₀ (Real.exp_pos 1) (by norm_num)]
    have := Real.exp_one_gt_d9
    norm_num; linarith
  refine ⟨h, by rw [h]; nlinarith, fun h3 => ?_⟩
  rw [h] at h3
  nlinarith

/-- the value at distance `timedepth * log 2` is half of the maximum: the half-time is `timedepth * log 2` -/
theorem C74_half_time_partial (dim : ℕ) (d m : ℝ) (hd : d ≠ 0) (f : ℝ → ℝ) (hf : dynamicParameter "exponential" dim d m = some f) :
    f (d * Real.log 2) = m / 2 := by
  rw [dynamicParameter_exponential dim hd] at hf
  rw [← Option.some.inj hf]
  simp only
  have h1 : 0 ≤ d * (d * Real.log 2) := by
    rw [← mul_assoc]; exact mul_nonneg (mul_self_nonneg d) (Real.log_nonneg (by norm_num))
  rw [heaviside1_nonneg ((sign_mul_nonneg_iff hd).2 h1)]
  have : -1 / d * (d * Real.log 2) = -Real.log 2 := by field_simp
  rw [this, Real.exp_neg, Real.exp_log (by norm_num)]
  ring

/-- **C74, refuted: intensity.** For a negative time depth 'intensity' does not fade at all: every event to the past of the slice is drawn with the full value. -/
theorem C74_intensity_refuted (dim : ℕ) (d m : ℝ) (hd : d < 0) (f : ℝ → ℝ) (hf : dynamicParameter "intensity" dim d m = some f) (v : ℝ) (hv : v ≤ 0) :
    f v = m := by
  rw [dynamicParameter_intensity] at hf
  rw [← Option.some.inj hf]
  simp only
  rw [heaviside1_nonneg ((sign_mul_nonneg_iff hd.ne).2 (by nlinarith)), max_eq_right hv]
  simp

/-- C58, C74: a time depth of -2 and a maximum of 1, for all three names -/
example : ∃ f g k : ℝ → ℝ, dynamicParameter "linear" 3 (-2) 1 = some f ∧ dynamicParameter "exponential" 3 (-2) 1 = some g ∧
    dynamicParameter "intensity" 3 (-2) 1 = some k ∧ f (-1) = 1 / 2 ∧ g (-2) = Real.exp (-1) ∧ k (-7) = 1 ∧ f 1 = 0 := by
  obtain ⟨f, hf, h1, h2, -⟩ := C58_linear 3 (-2) 1 (by norm_num) (by norm_num)
  obtain ⟨g, hg, -⟩ := C58_exponential 3 (-2) 1 (by norm_num) (by norm_num)
  obtain ⟨k, hk, -⟩ := C58_intensity 3 (-2) 1 (by norm_num) (by norm_num)
  refine ⟨f, g, k, hf, hg, hk, ?_, ?_, ?_, ?_⟩
  · rw [h2 _ (by norm_num)]; norm_num
  · rw [(C74_half_time_refuted 3 (-2) 1 (by norm_num) (by norm_num) g hg).1]; ring
  · exact C74_intensity_refuted 3 (-2) 1 (by norm_num) k hk _ (by norm_num)
  · exact C58_wrong_side _ _ _ _ _ hf _ (by norm_num)

end Causets
