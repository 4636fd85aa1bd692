import Mathlib.MeasureTheory.Measure.Lebesgue.VolumeOfBalls
import Mathlib.MeasureTheory.Integral.IntervalIntegral.FundThmCalculus
import Mathlib.Analysis.SpecialFunctions.Integrals.Basic

/-! # Lebesgue volumes of balls, shells, cylinders and double cones in `Fin n → ℝ` -/

namespace Causets
open MeasureTheory ENNReal

/-- Euclidean norm of a coordinate vector -/
noncomputable def enorm2 {n : ℕ} (y : Fin n → ℝ) : ℝ := Real.sqrt (∑ i, y i ^ 2)

/-- volume of the unit ball in `n` dimensions -/
noncomputable def omega (n : ℕ) : ℝ := Real.pi ^ ((n : ℝ) / 2) / Real.Gamma ((n : ℝ) / 2 + 1)

theorem omega_pos (n : ℕ) : 0 < omega n := by
  unfold omega
  have := Real.Gamma_pos_of_pos (show (0 : ℝ) < (n : ℝ) / 2 + 1 by positivity)
  have := Real.pi_pos
  positivity

theorem omega_zero : omega 0 = 1 := by simp [omega, Real.Gamma_one]

theorem sqrt_pi_pow (n : ℕ) : (Real.sqrt Real.pi) ^ n = Real.pi ^ ((n : ℝ) / 2) := by
  rw [Real.sqrt_eq_rpow, ← Real.rpow_natCast, ← Real.rpow_mul Real.pi_pos.le]
  congr 1; ring

theorem enorm2_eq_norm {n : ℕ} (y : Fin n → ℝ) : enorm2 y = ‖(WithLp.toLp 2 y : EuclideanSpace ℝ (Fin n))‖ := by
  rw [EuclideanSpace.norm_eq]
  simp [enorm2]

theorem measurable_enorm2 {n : ℕ} : Measurable (enorm2 : (Fin n → ℝ) → ℝ) := by
  unfold enorm2
  exact Measurable.sqrt (Finset.measurable_sum _ fun i _ => (measurable_pi_apply i).pow_const 2)

theorem volume_univ_fin_zero : volume (Set.univ : Set (Fin 0 → ℝ)) = 1 := by
  have : (Set.univ : Set (Fin 0 → ℝ)) = Set.pi Set.univ (fun _ => Set.univ) := by simp
  rw [this, volume_pi_pi]; simp

/-- closed ball -/
theorem volume_le_enorm2 (n : ℕ) {s : ℝ} (hs : 0 ≤ s) : volume {y : Fin n → ℝ | enorm2 y ≤ s} = ENNReal.ofReal (omega n * s ^ n) := by
  rcases Nat.eq_zero_or_pos n with rfl | hn
  · have : {y : Fin 0 → ℝ | enorm2 y ≤ s} = Set.univ := by
      ext y; simp [enorm2, hs]
    rw [this, volume_univ_fin_zero]
    simp [omega_zero]
  · haveI : Nonempty (Fin n) := ⟨⟨0, hn⟩⟩
    have h1 : {y : Fin n → ℝ | enorm2 y ≤ s} = (WithLp.toLp 2) ⁻¹' (Metric.closedBall (0 : EuclideanSpace ℝ (Fin n)) s) := by
      ext y; simp [enorm2_eq_norm]
    rw [h1, (PiLp.volume_preserving_toLp (Fin n)).measure_preimage measurableSet_closedBall.nullMeasurableSet,
      EuclideanSpace.volume_closedBall, Fintype.card_fin, sqrt_pi_pow, ← ENNReal.ofReal_pow hs, ← ENNReal.ofReal_mul (by positivity)]
    congr 1
    rw [omega]; ring

/-- open ball -/
theorem volume_lt_enorm2 (n : ℕ) {s : ℝ} (hs : 0 < s) : volume {y : Fin n → ℝ | enorm2 y < s} = ENNReal.ofReal (omega n * s ^ n) := by
  rcases Nat.eq_zero_or_pos n with rfl | hn
  · have : {y : Fin 0 → ℝ | enorm2 y < s} = Set.univ := by
      ext y; simp [enorm2, hs]
    rw [this, volume_univ_fin_zero]
    simp [omega_zero]
  · haveI : Nonempty (Fin n) := ⟨⟨0, hn⟩⟩
    have h1 : {y : Fin n → ℝ | enorm2 y < s} = (WithLp.toLp 2) ⁻¹' (Metric.ball (0 : EuclideanSpace ℝ (Fin n)) s) := by
      ext y; simp [enorm2_eq_norm]
    rw [h1, (PiLp.volume_preserving_toLp (Fin n)).measure_preimage measurableSet_ball.nullMeasurableSet,
      EuclideanSpace.volume_ball, Fintype.card_fin, sqrt_pi_pow, ← ENNReal.ofReal_pow hs.le, ← ENNReal.ofReal_mul (by positivity)]
    congr 1
    rw [omega]; ring

/-- spherical shell; the inner radius `0` means no hole -/
theorem volume_shell (n : ℕ) {a s : ℝ} (ha : 0 ≤ a) (has : a ≤ s) :
    volume {y : Fin n → ℝ | a ≤ enorm2 y ∧ enorm2 y ≤ s} = ENNReal.ofReal (omega n * (s ^ n - if 0 < a then a ^ n else 0)) := by
  by_cases h : 0 < a
  · have e : {y : Fin n → ℝ | a ≤ enorm2 y ∧ enorm2 y ≤ s} = {y | enorm2 y ≤ s} \ {y | enorm2 y < a} := by
      ext y; simp [and_comm]
    rw [e, measure_diff (s₁ := {y : Fin n → ℝ | enorm2 y ≤ s}) (s₂ := {y : Fin n → ℝ | enorm2 y < a}) (fun y (hy : enorm2 y < a) => (hy.trans_le has).le) (measurableSet_lt measurable_enorm2 measurable_const).nullMeasurableSet
      (by rw [volume_lt_enorm2 n h]; exact ENNReal.ofReal_ne_top), volume_le_enorm2 n (ha.trans has), volume_lt_enorm2 n h,
      ← ENNReal.ofReal_sub _ (by have := omega_pos n; positivity), if_pos h]
    congr 1; ring
  · have ha0 : a = 0 := le_antisymm (not_lt.1 h) ha
    have e : {y : Fin n → ℝ | a ≤ enorm2 y ∧ enorm2 y ≤ s} = {y | enorm2 y ≤ s} := by
      ext y; simp [ha0, enorm2, Real.sqrt_nonneg]
    rw [e, volume_le_enorm2 n (ha.trans has), if_neg h, sub_zero]

/-- the set of the vectors in `n + 1` dimensions whose first coordinate and remaining coordinates satisfy `P` has the volume of the set of pairs -/
theorem volume_split (n : ℕ) (A : Set (ℝ × (Fin n → ℝ))) (hA : MeasurableSet A) :
    volume {x : Fin (n + 1) → ℝ | (x 0, fun i : Fin n => x i.succ) ∈ A} = volume A := by
  have h := (volume_preserving_piFinSuccAbove (fun _ : Fin (n + 1) => ℝ) 0).measure_preimage hA.nullMeasurableSet
  rw [← h]
  congr 1

/-- cylinder -/
theorem volume_cylinder (n : ℕ) {a s T : ℝ} (ha : 0 ≤ a) (has : a ≤ s) (hT : 0 ≤ T) :
    volume {x : Fin (n + 1) → ℝ | |x 0| ≤ T / 2 ∧ a ≤ enorm2 (fun i : Fin n => x i.succ) ∧ enorm2 (fun i : Fin n => x i.succ) ≤ s} =
      ENNReal.ofReal (omega n * (s ^ n - if 0 < a then a ^ n else 0) * T) := by
  have e : {x : Fin (n + 1) → ℝ | |x 0| ≤ T / 2 ∧ a ≤ enorm2 (fun i : Fin n => x i.succ) ∧ enorm2 (fun i : Fin n => x i.succ) ≤ s} =
      {x | (x 0, fun i : Fin n => x i.succ) ∈ Set.Icc (-(T / 2)) (T / 2) ×ˢ {y : Fin n → ℝ | a ≤ enorm2 y ∧ enorm2 y ≤ s}} := by
    ext x; simp [abs_le]
  have hm : MeasurableSet {y : Fin n → ℝ | a ≤ enorm2 y ∧ enorm2 y ≤ s} :=
    (measurableSet_le measurable_const measurable_enorm2).inter (measurableSet_le measurable_enorm2 measurable_const)
  rw [e, volume_split n _ (measurableSet_Icc.prod hm), Measure.volume_eq_prod, Measure.prod_prod, Real.volume_Icc, volume_shell n ha has,
    ← ENNReal.ofReal_mul (by linarith)]
  congr 1; ring

theorem integral_tent (n : ℕ) {s : ℝ} (hs : 0 ≤ s) : ∫ t in (-s)..s, (s - |t|) ^ n = 2 * s ^ (n + 1) / (n + 1) := by
  have hc : Continuous fun t : ℝ => (s - |t|) ^ n := by fun_prop
  rw [← intervalIntegral.integral_add_adjacent_intervals (b := 0) (hc.intervalIntegrable _ _) (hc.intervalIntegrable _ _)]
  have h1 : ∫ t in (-s)..0, (s - |t|) ^ n = ∫ t in (-s)..0, (s + t) ^ n := by
    refine intervalIntegral.integral_congr fun t ht => ?_
    rw [Set.uIcc_of_le (by linarith)] at ht
    simp only [abs_of_nonpos ht.2, sub_neg_eq_add]
  have h2 : ∫ t in (0 : ℝ)..s, (s - |t|) ^ n = ∫ t in (0 : ℝ)..s, (s - t) ^ n := by
    refine intervalIntegral.integral_congr fun t ht => ?_
    rw [Set.uIcc_of_le hs] at ht
    simp only [abs_of_nonneg ht.1]
  rw [h1, h2, intervalIntegral.integral_comp_add_left (fun t => t ^ n) s, intervalIntegral.integral_comp_sub_left (fun t => t ^ n) s]
  simp only [add_neg_cancel, add_zero, sub_self, sub_zero, integral_pow]
  rw [zero_pow (by omega)]
  ring

/-- closed double cone -/
theorem volume_bicone_le (n : ℕ) {s : ℝ} (hs : 0 ≤ s) :
    volume {x : ℝ × (Fin n → ℝ) | |x.1| + enorm2 x.2 ≤ s} = ENNReal.ofReal (omega n * (2 * s ^ (n + 1) / (n + 1))) := by
  have hm : MeasurableSet {x : ℝ × (Fin n → ℝ) | |x.1| + enorm2 x.2 ≤ s} :=
    measurableSet_le ((continuous_abs.measurable.comp measurable_fst).add (measurable_enorm2.comp measurable_snd)) measurable_const
  rw [Measure.volume_eq_prod, Measure.prod_apply hm]
  have h1 : ∀ t : ℝ, volume (Prod.mk t ⁻¹' {x : ℝ × (Fin n → ℝ) | |x.1| + enorm2 x.2 ≤ s}) =
      (Set.Icc (-s) s).indicator (fun t => ENNReal.ofReal (omega n * (s - |t|) ^ n)) t := by
    intro t
    have e : Prod.mk t ⁻¹' {x : ℝ × (Fin n → ℝ) | |x.1| + enorm2 x.2 ≤ s} = {y | enorm2 y ≤ s - |t|} := by
      ext y; simp only [Set.mem_preimage, Set.mem_setOf_eq]; constructor <;> intro h <;> linarith
    rw [e]
    by_cases ht : |t| ≤ s
    · rw [Set.indicator_of_mem (by simpa [abs_le] using ht), volume_le_enorm2 n (by linarith)]
    · rw [Set.indicator_of_notMem (by simpa [abs_le] using ht)]
      have : {y : Fin n → ℝ | enorm2 y ≤ s - |t|} = ∅ := by
        ext y
        have := Real.sqrt_nonneg (∑ i, y i ^ 2)
        simp only [enorm2, Set.mem_setOf_eq, Set.mem_empty_iff_false, iff_false, not_le]
        push Not at ht
        linarith
      rw [this, measure_empty]
  simp only [h1]
  rw [lintegral_indicator measurableSet_Icc, ← ofReal_integral_eq_lintegral_ofReal]
  · rw [integral_Icc_eq_integral_Ioc, ← intervalIntegral.integral_of_le (by linarith), intervalIntegral.integral_const_mul, integral_tent n hs]
  · have hc : Continuous fun t : ℝ => omega n * (s - |t|) ^ n := by fun_prop
    exact hc.continuousOn.integrableOn_Icc
  · refine (ae_restrict_iff' measurableSet_Icc).2 (Filter.Eventually.of_forall fun t ht => ?_)
    have : |t| ≤ s := abs_le.2 ht
    have := omega_pos n
    have : 0 ≤ s - |t| := by linarith
    simp only [Pi.zero_apply]
    positivity

/-- open double cone -/
theorem volume_bicone_lt (n : ℕ) {s : ℝ} (hs : 0 ≤ s) :
    volume {x : ℝ × (Fin n → ℝ) | |x.1| + enorm2 x.2 < s} = ENNReal.ofReal (omega n * (2 * s ^ (n + 1) / (n + 1))) := by
  rw [← volume_bicone_le n hs]
  have hm : MeasurableSet {x : ℝ × (Fin n → ℝ) | |x.1| + enorm2 x.2 ≤ s} :=
    measurableSet_le ((continuous_abs.measurable.comp measurable_fst).add (measurable_enorm2.comp measurable_snd)) measurable_const
  have hm' : MeasurableSet {x : ℝ × (Fin n → ℝ) | |x.1| + enorm2 x.2 < s} :=
    measurableSet_lt ((continuous_abs.measurable.comp measurable_fst).add (measurable_enorm2.comp measurable_snd)) measurable_const
  rw [Measure.volume_eq_prod, Measure.prod_apply hm, Measure.prod_apply hm']
  refine lintegral_congr_ae ?_
  have hne : ∀ᵐ t : ℝ, t ≠ s ∧ t ≠ -s := by
    have h : (({s, -s} : Set ℝ)ᶜ) ∈ ae (volume : Measure ℝ) := by
      rw [compl_mem_ae_iff]
      exact (Set.toFinite _).measure_zero _
    filter_upwards [h] with t ht
    simpa [not_or] using ht
  filter_upwards [hne] with t ht
  have e : Prod.mk t ⁻¹' {x : ℝ × (Fin n → ℝ) | |x.1| + enorm2 x.2 ≤ s} = {y | enorm2 y ≤ s - |t|} := by
    ext y; simp only [Set.mem_preimage, Set.mem_setOf_eq]; constructor <;> intro h <;> linarith
  have e' : Prod.mk t ⁻¹' {x : ℝ × (Fin n → ℝ) | |x.1| + enorm2 x.2 < s} = {y | enorm2 y < s - |t|} := by
    ext y; simp only [Set.mem_preimage, Set.mem_setOf_eq]; constructor <;> intro h <;> linarith
  rw [e, e']
  rcases lt_trichotomy |t| s with h | h | h
  · rw [volume_lt_enorm2 n (by linarith), volume_le_enorm2 n (by linarith)]
  · rcases abs_choice t with h' | h'
    · exact absurd (h'.symm.trans h) ht.1
    · exact absurd (by linarith) ht.2
  · congr 1
    ext y
    have := Real.sqrt_nonneg (∑ i, y i ^ 2)
    simp only [enorm2, Set.mem_setOf_eq]
    constructor <;> intro h' <;> linarith

/-- hollow double cone -/
theorem volume_bicone (n : ℕ) {a s : ℝ} (ha : 0 ≤ a) (has : a ≤ s) :
    volume {x : Fin (n + 1) → ℝ | a ≤ |x 0| + enorm2 (fun i : Fin n => x i.succ) ∧ |x 0| + enorm2 (fun i : Fin n => x i.succ) ≤ s} =
      ENNReal.ofReal (omega n * (2 * (s ^ (n + 1) - a ^ (n + 1)) / (n + 1))) := by
  have hmg : Measurable fun x : ℝ × (Fin n → ℝ) => |x.1| + enorm2 x.2 := (continuous_abs.measurable.comp measurable_fst).add (measurable_enorm2.comp measurable_snd)
  have e : {x : Fin (n + 1) → ℝ | a ≤ |x 0| + enorm2 (fun i : Fin n => x i.succ) ∧ |x 0| + enorm2 (fun i : Fin n => x i.succ) ≤ s} =
      {x | (x 0, fun i : Fin n => x i.succ) ∈ {x : ℝ × (Fin n → ℝ) | |x.1| + enorm2 x.2 ≤ s} \ {x : ℝ × (Fin n → ℝ) | |x.1| + enorm2 x.2 < a}} := by
    ext x; simp [and_comm]
  have hm' : MeasurableSet {x : ℝ × (Fin n → ℝ) | |x.1| + enorm2 x.2 < a} := measurableSet_lt hmg measurable_const
  have hp := omega_pos n
  rw [e, volume_split n _ ((measurableSet_le hmg measurable_const).diff hm'),
    measure_diff (s₁ := {x : ℝ × (Fin n → ℝ) | |x.1| + enorm2 x.2 ≤ s}) (s₂ := {x : ℝ × (Fin n → ℝ) | |x.1| + enorm2 x.2 < a}) (fun x (hx : |x.1| + enorm2 x.2 < a) => (hx.trans_le has).le) hm'.nullMeasurableSet
      (by rw [volume_bicone_lt n ha]; exact ENNReal.ofReal_ne_top), volume_bicone_lt n ha, volume_bicone_le n (ha.trans has),
      ← ENNReal.ofReal_sub _ (by positivity)]
  congr 1; ring

/-- translation -/
theorem volume_translate {n : ℕ} (c : Fin n → ℝ) (A : Set (Fin n → ℝ)) : volume {x : Fin n → ℝ | (fun i => x i - c i) ∈ A} = volume A := by
  rw [← measure_preimage_add_right volume (-c) A]
  congr 1

end Causets
