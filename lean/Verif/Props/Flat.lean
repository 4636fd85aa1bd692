import Verif.Model.Spacetimes
import Verif.Props.Create

/-! # C43 — flat spacetimes: the causality function is the Minkowski (torus) order -/

namespace Causets

/-! ## Specification -/

/-- **Specification.** The causal order of `dim`-dimensional Minkowski spacetime: the time difference is at least the Euclidean distance. -/
def MinkLe (dim : ℕ) (x y : Point) : Prop := Real.sqrt (∑ i ∈ Finset.Ico 1 dim, (y i - x i) ^ 2) ≤ y 0 - x 0

/-- **Specification.** The image of a point under `k i` steps of size `period i` in each spatial direction `i` with a positive period. -/
noncomputable def image (period : ℕ → ℝ) (k : ℕ → ℤ) (y : Point) : Point :=
  fun i => if 1 ≤ i ∧ period (i - 1) > 0 then y i + k i * period (i - 1) else y i

/-- **Specification.** The causal order of the flat cylinder/torus: `x` is in the past of some image of `y`. -/
def TorusLe (dim : ℕ) (period : ℕ → ℝ) (x y : Point) : Prop := ∃ k : ℕ → ℤ, MinkLe dim x (image period k y)

/-! ## Minkowski order -/

theorem minkLe_iff (dim : ℕ) (x y : Point) : MinkLe dim x y ↔ 0 ≤ y 0 - x 0 ∧ spaceSq dim x y ≤ (y 0 - x 0) ^ 2 := by
  unfold MinkLe spaceSq
  constructor
  · intro h
    have h0 : 0 ≤ y 0 - x 0 := le_trans (Real.sqrt_nonneg _) h
    exact ⟨h0, (Real.sqrt_le_left h0).1 h⟩
  · rintro ⟨h0, h⟩
    exact Real.sqrt_le_iff.2 ⟨h0, h⟩

theorem minkLe_refl (dim : ℕ) (x : Point) : MinkLe dim x x := by
  rw [minkLe_iff]; simp [spaceSq]

/-- the triangle inequality: if `|c i| ≤ |a i| + |b i|`, the length of `c` is at most the sum of bounds of the lengths of `a` and `b` -/
theorem sumSq_tri (s : Finset ℕ) (a b c : ℕ → ℝ) (t u : ℝ) (ht : 0 ≤ t) (hu : 0 ≤ u) (ha : ∑ i ∈ s, a i ^ 2 ≤ t ^ 2)
    (hb : ∑ i ∈ s, b i ^ 2 ≤ u ^ 2) (hc : ∀ i ∈ s, |c i| ≤ |a i| + |b i|) : ∑ i ∈ s, c i ^ 2 ≤ (t + u) ^ 2 := by
  have h1 : ∑ i ∈ s, c i ^ 2 ≤ ∑ i ∈ s, (a i ^ 2 + 2 * (|a i| * |b i|) + b i ^ 2) := by
    refine Finset.sum_le_sum fun i hi => ?_
    have := hc i hi
    have h2 : c i ^ 2 = |c i| ^ 2 := (sq_abs _).symm
    rw [h2, ← sq_abs (a i), ← sq_abs (b i)]
    nlinarith [abs_nonneg (c i), abs_nonneg (a i), abs_nonneg (b i)]
  rw [Finset.sum_add_distrib, Finset.sum_add_distrib, ← Finset.mul_sum] at h1
  have h2 : (∑ i ∈ s, |a i| * |b i|) ^ 2 ≤ (∑ i ∈ s, a i ^ 2) * ∑ i ∈ s, b i ^ 2 := by
    have := Finset.sum_mul_sq_le_sq_mul_sq s (fun i => |a i|) (fun i => |b i|)
    simpa using this
  have h3 : ∑ i ∈ s, |a i| * |b i| ≤ t * u := by
    refine le_of_sq_le_sq ?_ (mul_nonneg ht hu)
    refine h2.trans ?_
    rw [mul_pow]
    exact mul_le_mul ha hb (Finset.sum_nonneg fun i _ => sq_nonneg _) (sq_nonneg _)
  nlinarith

theorem minkLe_trans {dim : ℕ} {x y z : Point} (h1 : MinkLe dim x y) (h2 : MinkLe dim y z) : MinkLe dim x z := by
  rw [minkLe_iff] at *
  refine ⟨by linarith [h1.1, h2.1], ?_⟩
  have := sumSq_tri (Finset.Ico 1 dim) (fun i => y i - x i) (fun i => z i - y i) (fun i => z i - x i) _ _ h1.1 h2.1 h1.2 h2.2
    (fun i _ => by
      have : z i - x i = (y i - x i) + (z i - y i) := by ring
      rw [this]; exact abs_add_le _ _)
  have e : y 0 - x 0 + (z 0 - y 0) = z 0 - x 0 := by ring
  rw [e] at this
  exact this

theorem minkLe_antisymm {dim : ℕ} {x y : Point} (h1 : MinkLe dim x y) (h2 : MinkLe dim y x) (hd : 1 ≤ dim) : ∀ i < dim, x i = y i := by
  rw [minkLe_iff] at *
  have h0 : y 0 - x 0 = 0 := by linarith [h1.1, h2.1]
  intro i hi
  rcases Nat.eq_zero_or_pos i with rfl | hi0
  · linarith
  · have : (y i - x i) ^ 2 ≤ spaceSq dim x y :=
      Finset.single_le_sum (f := fun i => (y i - x i) ^ 2) (fun i _ => sq_nonneg _) (Finset.mem_Ico.2 ⟨hi0, hi⟩)
    rw [h0] at h1
    have h2 : (y i - x i) ^ 2 ≤ 0 := by linarith [h1.2]
    have := pow_eq_zero_iff (two_ne_zero) |>.1 (le_antisymm h2 (sq_nonneg _))
    linarith

/-- the flat order through the translation of one point -/
theorem minkLe_image_comp {dim : ℕ} {period : ℕ → ℝ} {x y : Point} (k : ℕ → ℤ) (h : MinkLe dim x y) :
    MinkLe dim (image period k x) (image period k y) := by
  have e : ∀ i, image period k y i - image period k x i = y i - x i := by
    intro i; unfold image; split <;> ring
  unfold MinkLe at *
  rw [e 0]
  simp_rw [e]
  exact h

theorem image_image (period : ℕ → ℝ) (k m : ℕ → ℤ) (y : Point) : image period k (image period m y) = image period (fun i => k i + m i) y := by
  funext i
  unfold image
  split
  · push_cast; ring
  · rfl

theorem image_zero (period : ℕ → ℝ) (y : Point) : image period (fun _ => 0) y = y := by
  funext i; unfold image; split <;> simp

theorem torusLe_trans {dim : ℕ} {period : ℕ → ℝ} {x y z : Point} (h1 : TorusLe dim period x y) (h2 : TorusLe dim period y z) :
    TorusLe dim period x z := by
  obtain ⟨k, hk⟩ := h1
  obtain ⟨m, hm⟩ := h2
  refine ⟨fun i => k i + m i, ?_⟩
  rw [← image_image]
  exact minkLe_trans hk (minkLe_image_comp k hm)

/-! ## The distance along a periodic direction -/

theorem periodicDelta_nonneg {p d : ℝ} (h : p > 0 → |d| ≤ p) : 0 ≤ periodicDelta p d := by
  unfold periodicDelta
  split
  · next hp => exact le_min (abs_nonneg _) (by linarith [h hp])
  · exact abs_nonneg _

/-- it is attained at an image ... -/
theorem periodicDelta_attained {p d : ℝ} (hp : p > 0) : ∃ k : ℤ, |d + k * p| = |periodicDelta p d| := by
  unfold periodicDelta
  rw [if_pos hp]
  rcases le_total |d| (p - |d|) with h | h
  · exact ⟨0, by rw [min_eq_left h]; simp⟩
  · rw [min_eq_right h]
    rcases le_total 0 d with hd | hd
    · refine ⟨-1, ?_⟩
      rw [abs_of_nonneg hd, abs_sub_comm]
      push_cast
      congr 1; ring
    · refine ⟨1, ?_⟩
      rw [abs_of_nonpos hd]
      push_cast
      congr 1; ring

/-- ... and is a lower bound for all images -/
theorem periodicDelta_le {p d : ℝ} (hp : p > 0) (hd : |d| ≤ p) (k : ℤ) : periodicDelta p d ≤ |d + k * p| := by
  unfold periodicDelta
  rw [if_pos hp]
  by_cases hk : k = 0
  · subst hk; simp
  · refine (min_le_right _ _).trans ?_
    have h1 : p ≤ |(k : ℝ) * p| := by
      rw [abs_mul, abs_of_pos hp]
      have : (1 : ℝ) ≤ |(k : ℝ)| := by
        rw [← Int.cast_abs]
        exact_mod_cast Int.one_le_abs hk
      nlinarith
    have h2 : |(k : ℝ) * p| ≤ |d + k * p| + |d| := by
      have := abs_sub (d + k * p) d
      rw [add_sub_cancel_left] at this
      exact this
    linarith

/-- **Specification.** The coordinates of two points differ by at most the period in every periodic direction (e.g. both are in one
fundamental domain; for the default shape of a periodic flat spacetime see C113). -/
def InDomain (dim : ℕ) (period : ℕ → ℝ) (x y : Point) : Prop := ∀ i, 1 ≤ i → i < dim → period (i - 1) > 0 → |y i - x i| ≤ period (i - 1)

theorem torusLe_iff {dim : ℕ} {period : ℕ → ℝ} {x y : Point} (hd : InDomain dim period x y) :
    TorusLe dim period x y ↔ 0 ≤ y 0 - x 0 ∧ ∑ i ∈ Finset.Ico 1 dim, (periodicDelta (period (i - 1)) (y i - x i)) ^ 2 ≤ (y 0 - x 0) ^ 2 := by
  have e0 : ∀ k, image period k y 0 = y 0 := fun k => by simp [image]
  constructor
  · rintro ⟨k, hk⟩
    rw [minkLe_iff, e0] at hk
    refine ⟨hk.1, le_trans (Finset.sum_le_sum fun i hi => ?_) hk.2⟩
    rw [Finset.mem_Ico] at hi
    by_cases hp : period (i - 1) > 0
    · have h1 := periodicDelta_le hp (hd i hi.1 hi.2 hp) (k i)
      have h2 := periodicDelta_nonneg (fun hp => hd i hi.1 hi.2 hp)
      have e : image period k y i - x i = (y i - x i) + k i * period (i - 1) := by
        unfold image; rw [if_pos ⟨hi.1, hp⟩]; ring
      rw [e, ← sq_abs (_ + _)]
      exact pow_le_pow_left₀ h2 h1 2
    · have e : image period k y i = y i := by unfold image; rw [if_neg (by tauto)]
      rw [e]
      unfold periodicDelta
      rw [if_neg hp, sq_abs]
  · rintro ⟨h0, h⟩
    have : ∀ i, ∃ k : ℤ, period (i - 1) > 0 → |(y i - x i) + k * period (i - 1)| = |periodicDelta (period (i - 1)) (y i - x i)| := by
      intro i
      by_cases hp : period (i - 1) > 0
      · obtain ⟨k, hk⟩ := periodicDelta_attained (d := y i - x i) hp
        exact ⟨k, fun _ => hk⟩
      · exact ⟨0, fun h => absurd h hp⟩
    choose k hk using this
    refine ⟨k, ?_⟩
    rw [minkLe_iff, e0]
    refine ⟨h0, le_trans (le_of_eq (Finset.sum_congr rfl fun i hi => ?_)) h⟩
    rw [Finset.mem_Ico] at hi
    by_cases hp : period (i - 1) > 0
    · have e : image period k y i - x i = (y i - x i) + k i * period (i - 1) := by
        unfold image; rw [if_pos ⟨hi.1, hp⟩]; ring
      rw [e, ← sq_abs (_ + _), hk i hp, sq_abs]
    · have e : image period k y i = y i := by unfold image; rw [if_neg (by tauto)]
      rw [e]
      unfold periodicDelta
      rw [if_neg hp, sq_abs]

theorem torusLe_of_no_period {dim : ℕ} {period : ℕ → ℝ} (hp : ∀ i, 1 ≤ i → i < dim → ¬ period (i - 1) > 0) (x y : Point) :
    TorusLe dim period x y ↔ MinkLe dim x y := by
  rw [torusLe_iff (fun i h1 h2 h3 => absurd h3 (hp i h1 h2)), minkLe_iff]
  have : ∑ i ∈ Finset.Ico 1 dim, (periodicDelta (period (i - 1)) (y i - x i)) ^ 2 = spaceSq dim x y := by
    refine Finset.sum_congr rfl fun i hi => ?_
    rw [Finset.mem_Ico] at hi
    unfold periodicDelta
    rw [if_neg (hp i hi.1 hi.2), sq_abs]
  rw [this]

/-! ## The causality functions -/

/-- the periods of a flat spacetime (`0`: not periodic) -/
noncomputable def FlatSpacetime.periods (M : FlatSpacetime) : ℕ → ℝ := fun i => if M.isPeriodic then (M.period.getD []).getD i 0 else 0

/-- **Specification.** The square of the spatial distance that decides causality. -/
noncomputable def FlatSpacetime.distSq (M : FlatSpacetime) (x y : Point) : ℝ :=
  ∑ i ∈ Finset.Ico 1 M.dim, (periodicDelta (M.periods (i - 1)) (y i - x i)) ^ 2

/-- all flat causality functions have this form: the time difference decides the direction, a symmetric test causality -/
theorem flat_form (eps : ℝ) (M : FlatSpacetime) :
    ∃ causal : Point → Point → Prop, (∀ x y, causal x y ↔ causal y x) ∧
      ∀ x y, M.causality eps x y = (test (y 0 - x 0 ≥ 0) && test (causal x y), test (y 0 - x 0 < 0) && test (causal x y)) := by
  have hp : ∀ p d : ℝ, periodicDelta p (-d) = periodicDelta p d := fun p d => by unfold periodicDelta; rw [abs_neg]
  unfold FlatSpacetime.causality
  split
  · exact ⟨fun _ _ => True, fun _ _ => Iff.rfl, fun x y => by simp [causalityBase]⟩
  · split
    · split
      · exact ⟨fun x y => |y 0 - x 0| ≥ |y 1 - x 1| - eps, fun x y => by dsimp only; rw [abs_sub_comm (y 0), abs_sub_comm (y 1)], fun x y => rfl⟩
      · refine ⟨fun x y => (y 0 - x 0) ^ 2 ≥ spaceSq M.dim x y - eps, fun x y => ?_, fun x y => rfl⟩
        have e1 : (y 0 - x 0) ^ 2 = (x 0 - y 0) ^ 2 := by ring
        have e2 : spaceSq M.dim x y = spaceSq M.dim y x := Finset.sum_congr rfl fun i _ => by ring
        dsimp only
        rw [e1, e2]
    · dsimp only
      split
      · refine ⟨fun x y => |y 0 - x 0| ≥ |periodicDelta ((M.period.getD []).getD 0 0) (y 1 - x 1)| - eps, fun x y => ?_, fun x y => rfl⟩
        dsimp only
        rw [abs_sub_comm (y 0), ← hp _ (y 1 - x 1), neg_sub]
      · refine ⟨fun x y => (y 0 - x 0) ^ 2 ≥
          (∑ i ∈ Finset.Ico 1 M.dim, (periodicDelta ((M.period.getD []).getD (i - 1) 0) (y i - x i)) ^ 2) - eps, fun x y => ?_, fun x y => rfl⟩
        have e1 : (y 0 - x 0) ^ 2 = (x 0 - y 0) ^ 2 := by ring
        dsimp only
        rw [e1]
        have : ∀ i, periodicDelta ((M.period.getD []).getD (i - 1) 0) (y i - x i) =
            periodicDelta ((M.period.getD []).getD (i - 1) 0) (x i - y i) := fun i => by rw [← hp, neg_sub]
        simp_rw [this]

/-- **C43, directions.** For every flat spacetime (any dimension, any periods) and every tolerance: the two directions are never reported
together; for events at different times swapping the arguments swaps the answers; the second answer means "the second point
precedes the first, and is earlier". -/
theorem C43_directions (eps : ℝ) (M : FlatSpacetime) (x y : Point) :
    ¬ ((M.causality eps x y).1 = true ∧ (M.causality eps x y).2 = true) ∧
    (x 0 ≠ y 0 → M.causality eps y x = ((M.causality eps x y).2, (M.causality eps x y).1)) ∧
    ((M.causality eps x y).1 = true → x 0 ≤ y 0) ∧
    ((M.causality eps x y).2 = true ↔ (M.causality eps y x).1 = true ∧ (M.causality eps x y).1 = false) := by
  obtain ⟨causal, hs, hf⟩ := flat_form eps M
  rw [hf x y, hf y x]
  have hs' : causal y x ↔ causal x y := hs y x
  by_cases hc : causal x y
  · have hc' : causal y x := hs'.2 hc
    refine ⟨?_, ?_, ?_, ?_⟩
    · simp only [test, Bool.and_eq_true, decide_eq_true_eq]
      rintro ⟨⟨h1, -⟩, h2, -⟩; linarith
    · intro hne
      rcases lt_or_gt_of_ne hne with h | h
      · have e1 : y 0 - x 0 ≥ 0 := by linarith
        have e2 : ¬ (y 0 - x 0 < 0) := by linarith
        have e3 : ¬ (x 0 - y 0 ≥ 0) := by linarith
        have e4 : x 0 - y 0 < 0 := by linarith
        simp [test, e1, e2, e3, e4, hc, hc']
      · have e1 : ¬ (y 0 - x 0 ≥ 0) := by linarith
        have e2 : y 0 - x 0 < 0 := by linarith
        have e3 : x 0 - y 0 ≥ 0 := by linarith
        have e4 : ¬ (x 0 - y 0 < 0) := by linarith
        simp [test, e1, e2, e3, e4, hc, hc']
    · simp only [test, Bool.and_eq_true, decide_eq_true_eq]
      rintro ⟨h1, -⟩; linarith
    · simp only [test, Bool.and_eq_true, decide_eq_true_eq, Bool.and_eq_false_iff, decide_eq_false_iff_not, hc, hc', and_true,
        not_true, or_false]
      constructor
      · intro h; constructor <;> linarith
      · rintro ⟨h1, h2⟩; exact not_le.1 h2
  · have hc' : ¬ causal y x := fun h => hc (hs'.1 h)
    simp [test, hc, hc']

theorem FlatSpacetime.distSq_nonneg (M : FlatSpacetime) (x y : Point) : 0 ≤ M.distSq x y := Finset.sum_nonneg fun i _ => sq_nonneg _

/-- without tolerance the causality function compares the time difference and the distance -/
theorem flat_exact (M : FlatSpacetime) (x y : Point) (hd1 : 1 ≤ M.dim) :
    (M.causality 0 x y).1 = true ↔ 0 ≤ y 0 - x 0 ∧ M.distSq x y ≤ (y 0 - x 0) ^ 2 := by
  unfold FlatSpacetime.causality FlatSpacetime.distSq FlatSpacetime.periods
  have hnp : ∀ d : ℝ, periodicDelta 0 d ^ 2 = d ^ 2 := fun d => by unfold periodicDelta; rw [if_neg (lt_irrefl _), sq_abs]
  split
  · next h1 => simp [causalityBase, h1, sq_nonneg, test]
  · split
    · next h2 =>
      have hper : M.isPeriodic = false := by simpa using h2
      simp only [hper, Bool.false_eq_true, if_false, hnp]
      split
      · next h3 =>
        rw [h3]
        simp only [causalityFlat2D, test, Bool.and_eq_true, decide_eq_true_eq, sub_zero, ge_iff_le, Nat.Ico_succ_singleton, Finset.sum_singleton]
        rw [sq_le_sq]
      · simp [causalityFlat, test, spaceSq]
    · next h2 =>
      have hper : M.isPeriodic = true := by simpa using h2
      simp only [hper, if_true]
      split
      · next h3 =>
        rw [h3]
        simp only [causalityFlat2DPeriodic, test, Bool.and_eq_true, decide_eq_true_eq, sub_zero, ge_iff_le, Nat.Ico_succ_singleton,
          Finset.sum_singleton]
        rw [sq_le_sq]
      · simp [causalityFlatPeriodic, test]

/-- **C43, the order.** In a flat spacetime of any dimension without tolerance the first answer is exactly the causal order of Minkowski
spacetime, or of the cylinder/torus if there are periods (for points that differ by at most the period). -/
theorem C43_order (M : FlatSpacetime) (x y : Point) (hd1 : 1 ≤ M.dim) (hd : InDomain M.dim M.periods x y) :
    (M.causality 0 x y).1 = true ↔ TorusLe M.dim M.periods x y := by
  rw [flat_exact M x y hd1, torusLe_iff hd]
  rfl

/-- **C43, not periodic.** Minkowski spacetime of any dimension: exactly the Minkowski order, for all points. -/
theorem C43_minkowski (M : FlatSpacetime) (hnp : M.isPeriodic = false) (x y : Point) (hd1 : 1 ≤ M.dim) :
    (M.causality 0 x y).1 = true ↔ MinkLe M.dim x y := by
  have hp : ∀ i, ¬ M.periods i > 0 := fun i => by unfold FlatSpacetime.periods; simp [hnp]
  rw [C43_order M x y hd1 (fun i _ _ h3 => absurd h3 (hp _)), torusLe_of_no_period (fun i _ _ => hp _)]

/-- **C43, transitivity.** Without tolerance, on every set of points that pairwise differ by at most the periods (all points, if there are
none), the causality function describes a causal order. -/
theorem C43_causal_order (M : FlatSpacetime) (hd1 : 1 ≤ M.dim) (S : Set Point)
    (hS : ∀ x ∈ S, ∀ y ∈ S, InDomain M.dim M.periods x y) : IsCausalOrder (M.causality 0) S where
  trans x hx y hy z hz h1 h2 := by
    rw [C43_order M _ _ hd1 (hS _ hx _ hy)] at h1
    rw [C43_order M _ _ hd1 (hS _ hy _ hz)] at h2
    rw [C43_order M _ _ hd1 (hS _ hx _ hz)]
    exact torusLe_trans h1 h2
  after x _ y _ := (C43_directions 0 M x y).2.2.2

/-- with tolerance: the time difference is compared with the distance (two dimensions), or the squares of both (more dimensions) -/
theorem flat_tolerance (eps : ℝ) (he : 0 ≤ eps) (M : FlatSpacetime) (x y : Point) (hd1 : 1 ≤ M.dim) :
    (M.causality eps x y).1 = true ↔ 0 ≤ y 0 - x 0 ∧
      (if M.dim = 2 then Real.sqrt (M.distSq x y) ≤ y 0 - x 0 + eps else M.distSq x y ≤ (y 0 - x 0) ^ 2 + eps) := by
  unfold FlatSpacetime.causality FlatSpacetime.distSq FlatSpacetime.periods
  have hnp : ∀ d : ℝ, periodicDelta 0 d ^ 2 = d ^ 2 := fun d => by unfold periodicDelta; rw [if_neg (lt_irrefl _), sq_abs]
  have key : ∀ t d : ℝ, (0 ≤ t ∧ |d| - eps ≤ |t|) ↔ 0 ≤ t ∧ |d| ≤ t + eps := fun t d => by
    constructor
    · rintro ⟨h1, h2⟩; rw [abs_of_nonneg h1] at h2; exact ⟨h1, by linarith⟩
    · rintro ⟨h1, h2⟩; rw [abs_of_nonneg h1]; exact ⟨h1, by linarith⟩
  split
  · next h1 =>
    simp only [h1, causalityBase, test, decide_eq_true_eq, Finset.Ico_self, Finset.sum_empty]
    norm_num
    intro _
    nlinarith [sq_nonneg (y 0 - x 0)]
  · split
    · next h2 =>
      have hper : M.isPeriodic = false := by simpa using h2
      simp only [hper, Bool.false_eq_true, if_false, hnp]
      split
      · next h3 =>
        rw [h3]
        simp only [causalityFlat2D, test, Bool.and_eq_true, decide_eq_true_eq, ge_iff_le, Nat.Ico_succ_singleton, Finset.sum_singleton]
        rw [Real.sqrt_sq_eq_abs]
        exact key _ _
      · simp [causalityFlat, test, spaceSq]
    · next h2 =>
      have hper : M.isPeriodic = true := by simpa using h2
      simp only [hper, if_true]
      split
      · next h3 =>
        rw [h3]
        simp only [causalityFlat2DPeriodic, test, Bool.and_eq_true, decide_eq_true_eq, ge_iff_le, Nat.Ico_succ_singleton,
          Finset.sum_singleton]
        rw [Real.sqrt_sq_eq_abs]
        exact key _ _
      · simp [causalityFlatPeriodic, test]

/-- **Specification.** Two points are clearly related or clearly unrelated: their distance does not exceed the time difference, or it
exceeds it by more than the tolerance (and so does its square). -/
def FlatSpacetime.Clear (eps : ℝ) (M : FlatSpacetime) (x y : Point) : Prop :=
  Real.sqrt (M.distSq x y) ≤ |y 0 - x 0| ∨
    (|y 0 - x 0| + eps < Real.sqrt (M.distSq x y) ∧ (y 0 - x 0) ^ 2 + eps < M.distSq x y)

/-- **C43, with tolerance.** With any tolerance the causality function is still exactly the causal order of Minkowski spacetime or of the
torus, and describes a causal order, on every set of points in general position: no pair is so close to being lightlike related that the
tolerance decides. -/
theorem C43_general_position_partial (eps : ℝ) (he : 0 ≤ eps) (M : FlatSpacetime) (hd1 : 1 ≤ M.dim) (S : Set Point)
    (hS : ∀ x ∈ S, ∀ y ∈ S, InDomain M.dim M.periods x y) (hgen : ∀ x ∈ S, ∀ y ∈ S, M.Clear eps x y) :
    (∀ x ∈ S, ∀ y ∈ S, (M.causality eps x y).1 = true ↔ TorusLe M.dim M.periods x y) ∧ IsCausalOrder (M.causality eps) S := by
  have h : ∀ x ∈ S, ∀ y ∈ S, (M.causality eps x y).1 = true ↔ TorusLe M.dim M.periods x y := by
    intro x hx y hy
    rw [← C43_order M x y hd1 (hS x hx y hy), flat_tolerance eps he M x y hd1, flat_exact M x y hd1]
    refine and_congr_right fun h0 => ?_
    have hg := hgen x hx y hy
    unfold FlatSpacetime.Clear at hg
    rw [abs_of_nonneg h0] at hg
    rcases hg with hg | ⟨h1, h2⟩
    · have hg2 := (Real.sqrt_le_left h0).1 hg
      refine iff_of_true ?_ hg2
      split <;> linarith
    · refine iff_of_false ?_ (by linarith)
      split <;> linarith
  refine ⟨h, ⟨fun x hx y hy z hz h1 h2 => ?_, fun x _ y _ => (C43_directions eps M x y).2.2.2⟩⟩
  rw [h _ hx _ hy] at h1
  rw [h _ hy _ hz] at h2
  rw [h _ hx _ hz]
  exact torusLe_trans h1 h2

/-- C43: general position is met by clearly spacelike and clearly timelike points of the plane -/
example : (⟨2, false, none⟩ : FlatSpacetime).Clear causalityEps (fun _ => 0) (fun i => if i = 0 then 1 else 2) ∧
    (⟨2, false, none⟩ : FlatSpacetime).Clear causalityEps (fun _ => 0) (fun i => if i = 0 then 2 else 1) := by
  have e : ∀ d : ℝ, periodicDelta 0 d ^ 2 = d ^ 2 := fun d => by unfold periodicDelta; rw [if_neg (lt_irrefl _), sq_abs]
  have s4 : Real.sqrt 4 = 2 := by rw [show (4 : ℝ) = 2 ^ 2 by norm_num]; exact Real.sqrt_sq (by norm_num)
  constructor
  · right
    simp only [FlatSpacetime.distSq, FlatSpacetime.periods, Bool.false_eq_true, if_false, e, Nat.Ico_succ_singleton, Finset.sum_singleton]
    norm_num [causalityEps, s4]
  · left
    simp only [FlatSpacetime.distSq, FlatSpacetime.periods, Bool.false_eq_true, if_false, e, Nat.Ico_succ_singleton, Finset.sum_singleton]
    norm_num

end Causets
