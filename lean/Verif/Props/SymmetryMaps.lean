import Verif.Props.Symmetry
import Mathlib.Analysis.SpecialFunctions.Trigonometric.DerivHyp

/-! # C122 — the symmetries of the spacetimes -/

namespace Causets

/-! ## Flat spacetimes -/

/-- **Specification.** The squared interval of two points of Minkowski spacetime: not negative if one of them can influence the other. -/
noncomputable def interval (dim : ℕ) (x y : Point) : ℝ := (y 0 - x 0) ^ 2 - ∑ i ∈ Finset.Ico 1 dim, (y i - x i) ^ 2

/-- **Specification.** A map of Minkowski spacetime that preserves the interval and the order of times of causally related points (a translation, rotation, reflection of space, boost or a composition
of them). -/
structure PoincareMap (dim : ℕ) (f : Point → Point) : Prop where
  interval : ∀ x y, interval dim (f x) (f y) = interval dim x y
  time : ∀ x y, 0 ≤ Causets.interval dim x y → (x 0 ≤ y 0 ↔ f x 0 ≤ f y 0)

/-- **Specification.** A symmetry that does not mix space and time. -/
structure SpaceMap (dim : ℕ) (f : Point → Point) : Prop where
  time : ∀ x y, f y 0 - f x 0 = y 0 - x 0
  space : ∀ x y, ∑ i ∈ Finset.Ico 1 dim, (f y i - f x i) ^ 2 = ∑ i ∈ Finset.Ico 1 dim, (y i - x i) ^ 2

/-- the boost with rapidity `θ` in the first direction of space -/
noncomputable def boost (θ : ℝ) (x : Point) : Point := fun i =>
  if i = 0 then Real.cosh θ * x 0 + Real.sinh θ * x 1 else if i = 1 then Real.sinh θ * x 0 + Real.cosh θ * x 1 else x i

/-- the translation by `v` -/
def translate (v x : Point) : Point := fun i => x i + v i

theorem test_congr {p q : Prop} (h : p ↔ q) : test p = test q := by
  unfold test
  exact decide_eq_decide.2 h

theorem flat2D_interval (x y : Point) : causalityFlat2D 0 x y = (test (y 0 - x 0 ≥ 0) && test (0 ≤ interval 2 x y), test (y 0 - x 0 < 0) && test (0 ≤ interval 2 x y)) := by
  unfold causalityFlat2D interval
  have : test (|y 0 - x 0| ≥ |y 1 - x 1| - 0) = test (0 ≤ (y 0 - x 0) ^ 2 - ∑ i ∈ Finset.Ico 1 2, (y i - x i) ^ 2) := by
    refine test_congr ?_
    rw [sub_zero, ge_iff_le, ← sq_le_sq]
    simp
  dsimp only
  rw [this]

theorem flat_interval (dim : ℕ) (x y : Point) : causalityFlat 0 dim x y = (test (y 0 - x 0 ≥ 0) && test (0 ≤ interval dim x y), test (y 0 - x 0 < 0) && test (0 ≤ interval dim x y)) := by
  unfold causalityFlat interval spaceSq
  have : test ((y 0 - x 0) ^ 2 ≥ ∑ i ∈ Finset.Ico 1 dim, (y i - x i) ^ 2 - 0) = test (0 ≤ (y 0 - x 0) ^ 2 - ∑ i ∈ Finset.Ico 1 dim, (y i - x i) ^ 2) := by
    refine test_congr ?_
    rw [sub_zero, sub_nonneg]
  dsimp only
  rw [this]

theorem poincare_answers {dim : ℕ} {f : Point → Point} (hf : PoincareMap dim f) (x y : Point) :
    (test (f y 0 - f x 0 ≥ 0) && test (0 ≤ interval dim (f x) (f y)), test (f y 0 - f x 0 < 0) && test (0 ≤ interval dim (f x) (f y))) =
    (test (y 0 - x 0 ≥ 0) && test (0 ≤ interval dim x y), test (y 0 - x 0 < 0) && test (0 ≤ interval dim x y)) := by
  rw [hf.interval]
  by_cases h : 0 ≤ interval dim x y
  · have ht := hf.time x y h
    have e1 : test (f y 0 - f x 0 ≥ 0) = test (y 0 - x 0 ≥ 0) := test_congr (by rw [ge_iff_le, ge_iff_le, sub_nonneg, sub_nonneg]; exact ht.symm)
    have e2 : test (f y 0 - f x 0 < 0) = test (y 0 - x 0 < 0) := test_congr (by rw [sub_neg, sub_neg, ← not_le, ← not_le]; exact not_congr ht.symm)
    rw [e1, e2]
  · simp [test, h]

/-- **C122, Minkowski spacetime.** With exact comparisons (tolerance 0) the causality function of flat spacetimes without periods has the same values after every translation, rotation, reflection of
space and boost.  With the tolerance this is so for all pairs of points that are not within the tolerance of each other's light cone, before and after. -/
theorem C122_Minkowski (M : FlatSpacetime) (hd : 2 ≤ M.dim) (hp : M.isPeriodic = false) (f : Point → Point) (hf : PoincareMap M.dim f) (x y : Point) :
    M.causality 0 (f x) (f y) = M.causality 0 x y ∧
    ∀ eps, M.causality eps x y = M.causality 0 x y → M.causality eps (f x) (f y) = M.causality 0 (f x) (f y) → M.causality eps (f x) (f y) = M.causality eps x y := by
  have h0 : M.causality 0 (f x) (f y) = M.causality 0 x y := by
    unfold FlatSpacetime.causality
    rw [if_neg (by omega), hp]
    simp only [Bool.not_false, if_true]
    by_cases h2 : M.dim = 2
    · rw [if_pos h2, flat2D_interval, flat2D_interval]
      rw [h2] at hf
      exact poincare_answers hf x y
    · rw [if_neg h2, flat_interval, flat_interval]
      exact poincare_answers hf x y
  exact ⟨h0, fun eps h1 h2 => by rw [h1, h2, h0]⟩

/-- **C122, translations, rotations and reflections of Minkowski spacetime.** They give the same values with every tolerance. -/
theorem C122_space (eps : ℝ) (M : FlatSpacetime) (hp : M.isPeriodic = false) (f : Point → Point) (hf : SpaceMap M.dim f) (x y : Point) :
    M.causality eps (f x) (f y) = M.causality eps x y := by
  unfold FlatSpacetime.causality
  by_cases h1 : M.dim = 1
  · rw [if_pos h1]
    unfold causalityBase
    rw [hf.time]
  · rw [if_neg h1, hp]
    simp only [Bool.not_false, if_true]
    by_cases h2 : M.dim = 2
    · rw [if_pos h2]
      unfold causalityFlat2D
      have := hf.space x y
      rw [h2] at this
      simp only [Nat.Ico_succ_singleton, Finset.sum_singleton] at this
      rw [hf.time, sq_eq_sq_iff_abs_eq_abs _ _ |>.1 this]
    · rw [if_neg h2]
      unfold causalityFlat spaceSq
      rw [hf.time, hf.space]

/-- **C122, flat spacetimes with periods.** A map that preserves the differences of times and the absolute differences in every direction of space (translations and reflections) gives the same values
with every tolerance. -/
theorem C122_flat (eps : ℝ) (M : FlatSpacetime) (f : Point → Point) (hf : ∀ x y, f y 0 - f x 0 = y 0 - x 0 ∧ ∀ i, 1 ≤ i → i < M.dim → |f y i - f x i| = |y i - x i|) (x y : Point) :
    M.causality eps (f x) (f y) = M.causality eps x y := by
  have ht := (hf x y).1
  have hs := (hf x y).2
  have hpd : ∀ p i, 1 ≤ i → i < M.dim → periodicDelta p (f y i - f x i) = periodicDelta p (y i - x i) := by
    intro p i h1 h2
    unfold periodicDelta
    rw [hs i h1 h2]
  have hsum : ∑ i ∈ Finset.Ico 1 M.dim, (f y i - f x i) ^ 2 = ∑ i ∈ Finset.Ico 1 M.dim, (y i - x i) ^ 2 := by
    refine Finset.sum_congr rfl fun i hi => ?_
    rw [Finset.mem_Ico] at hi
    exact (sq_eq_sq_iff_abs_eq_abs _ _).2 (hs i hi.1 hi.2)
  unfold FlatSpacetime.causality
  by_cases h1 : M.dim = 1
  · rw [if_pos h1]
    unfold causalityBase
    rw [ht]
  rw [if_neg h1]
  rcases hd : M.dim with _ | _ | _ | n
  · -- dimension 0 is not constructed; the sums are empty
    rw [hd] at hsum
    cases M.isPeriodic
    · simp [causalityFlat, spaceSq, ht]
    · simp [causalityFlatPeriodic, ht]
  · exact absurd hd h1
  · have e1 := hs 1 le_rfl (by omega)
    have e2 := fun p => hpd p 1 le_rfl (by omega)
    cases M.isPeriodic
    · simp [causalityFlat2D, ht, e1]
    · simp [causalityFlat2DPeriodic, ht, e2]
  · cases M.isPeriodic
    · simp only [Bool.not_false, if_true]
      rw [if_neg (by omega)]
      unfold causalityFlat spaceSq
      rw [ht, ← hd, hsum]
    · simp only [Bool.not_true, Bool.false_eq_true, if_false]
      rw [if_neg (by omega)]
      unfold causalityFlatPeriodic
      have : ∑ i ∈ Finset.Ico 1 M.dim, (periodicDelta ((M.period.getD []).getD (i - 1) 0) (f y i - f x i)) ^ 2 =
          ∑ i ∈ Finset.Ico 1 M.dim, (periodicDelta ((M.period.getD []).getD (i - 1) 0) (y i - x i)) ^ 2 := by
        refine Finset.sum_congr rfl fun i hi => ?_
        rw [Finset.mem_Ico] at hi
        rw [hpd _ i hi.1 hi.2]
      rw [ht, ← hd, this]

theorem boost_identity (θ t r : ℝ) : (Real.cosh θ * t + Real.sinh θ * r) ^ 2 - (Real.sinh θ * t + Real.cosh θ * r) ^ 2 = t ^ 2 - r ^ 2 := by
  have := Real.cosh_sq θ
  nlinarith

theorem boost_time (θ t r : ℝ) (h : r ^ 2 ≤ t ^ 2) : 0 ≤ t ↔ 0 ≤ Real.cosh θ * t + Real.sinh θ * r := by
  have h1 := Real.cosh_sq θ
  have h2 := Real.cosh_pos θ
  have hs : |Real.sinh θ| < Real.cosh θ := by
    rw [abs_lt]
    constructor <;> nlinarith [sq_nonneg (Real.sinh θ - Real.cosh θ), sq_nonneg (Real.sinh θ + Real.cosh θ)]
  have hr : |r| ≤ |t| := sq_le_sq.1 h
  have hb : |Real.sinh θ * r| ≤ |Real.sinh θ| * |t| := by
    rw [abs_mul]
    exact mul_le_mul_of_nonneg_left hr (abs_nonneg _)
  rw [abs_le] at hb
  constructor
  · intro ht
    rw [abs_of_nonneg ht] at hb
    nlinarith [hb.1]
  · intro hh
    by_contra ht
    push Not at ht
    rw [abs_of_neg ht] at hb
    nlinarith [hb.2]

theorem interval_split (dim : ℕ) (hd : 2 ≤ dim) (x y : Point) : interval dim x y = (y 0 - x 0) ^ 2 - (y 1 - x 1) ^ 2 - ∑ i ∈ Finset.Ico 2 dim, (y i - x i) ^ 2 := by
  unfold interval
  rw [Finset.sum_eq_sum_Ico_succ_bot (by omega)]
  ring

/-- **C122, boosts.** They preserve the interval and the order of times of causally related points. -/
theorem C122_boost (dim : ℕ) (hd : 2 ≤ dim) (θ : ℝ) : PoincareMap dim (boost θ) := by
  have d0 : ∀ x y, boost θ y 0 - boost θ x 0 = Real.cosh θ * (y 0 - x 0) + Real.sinh θ * (y 1 - x 1) := by
    intro x y
    simp only [boost, if_true]
    ring
  have d1 : ∀ x y, boost θ y 1 - boost θ x 1 = Real.sinh θ * (y 0 - x 0) + Real.cosh θ * (y 1 - x 1) := by
    intro x y
    simp only [boost, one_ne_zero, if_false, if_true]
    ring
  constructor
  · intro x y
    rw [interval_split dim hd, interval_split dim hd, d0, d1, boost_identity]
    congr 1
    refine Finset.sum_congr rfl fun i hi => ?_
    rw [Finset.mem_Ico] at hi
    simp only [boost]
    rw [if_neg (by omega), if_neg (by omega), if_neg (by omega), if_neg (by omega)]
  · intro x y h
    rw [interval_split dim hd] at h
    have hn : 0 ≤ ∑ i ∈ Finset.Ico 2 dim, (y i - x i) ^ 2 := Finset.sum_nonneg fun _ _ => sq_nonneg _
    have := boost_time θ (y 0 - x 0) (y 1 - x 1) (by linarith)
    rw [← d0] at this
    rw [← sub_nonneg, this, sub_nonneg]

/-- **C122, translations** are symmetries of every kind. -/
theorem C122_translate (dim : ℕ) (v : Point) : PoincareMap dim (translate v) ∧ SpaceMap dim (translate v) := by
  have h : ∀ x y i, translate v y i - translate v x i = y i - x i := by
    intro x y i
    simp [translate]
  refine ⟨⟨?_, ?_⟩, ⟨fun x y => h x y 0, ?_⟩⟩
  · intro x y
    unfold interval
    simp only [h]
  · intro x y _
    simp [translate]
  · intro x y
    simp only [h]

/-- **C122, refuted within the tolerance.** Two points of three-dimensional Minkowski spacetime that are spacelike to each other by less than the tolerance are causally related by the code, and the
direction of the relation depends on the reference frame: a boost reverses it. -/
theorem C122_boost_refuted : ∃ (M : FlatSpacetime) (x y : Point), FlatSpacetime.init 3 (.float 0) = .ok M ∧
    M.causality causalityEps x y = (true, false) ∧ M.causality causalityEps (boost (-1) x) (boost (-1) y) = (false, true) := by
  have hM : (⟨3, false, none⟩ : FlatSpacetime).causality causalityEps = causalityFlat causalityEps 3 := by simp [FlatSpacetime.causality]
  refine ⟨⟨3, false, none⟩, fun _ => 0, fun i => if i = 1 then 1 / 10 ^ 7 else 0, ?_, ?_, ?_⟩
  · simp [FlatSpacetime.init]
  · have : (∑ i ∈ Finset.Ico 1 3, ((if i = 1 then (1:ℝ) / 10 ^ 7 else 0) - 0) ^ 2) = (1 / 10 ^ 7) ^ 2 := by
      rw [show Finset.Ico 1 3 = {1, 2} by rfl]
      norm_num
    rw [hM]
    unfold causalityFlat spaceSq causalityEps
    dsimp only
    rw [this]
    norm_num [test]
  · have hb : boost (-1) (fun _ => 0) = fun _ => 0 := by
      funext i
      simp [boost]
    have hneg : Real.sinh (-1) < 0 := by
      rw [Real.sinh_neg, neg_lt_zero]
      exact Real.sinh_pos_iff.2 (by norm_num)
    have key : interval 3 (boost (-1) (fun _ => 0)) (boost (-1) fun i => if i = 1 then 1 / 10 ^ 7 else 0) = - (1 / 10 ^ 7) ^ 2 := by
      rw [(C122_boost 3 (by norm_num) (-1)).interval]
      unfold interval
      rw [show Finset.Ico 1 3 = {1, 2} by rfl]
      norm_num
    have ht : boost (-1) (fun i => if i = 1 then (1:ℝ) / 10 ^ 7 else 0) 0 - boost (-1) (fun _ => 0) 0 < 0 := by
      rw [hb]
      simp only [boost, if_true, zero_ne_one, if_false, mul_zero, zero_add, sub_zero]
      have : (0:ℝ) < 1 / 10 ^ 7 := by positivity
      nlinarith
    unfold interval at key
    rw [hM]
    unfold causalityFlat spaceSq causalityEps
    dsimp only
    have hc : (boost (-1) (fun i => if i = 1 then (1:ℝ) / 10 ^ 7 else 0) 0 - boost (-1) (fun _ => 0) 0) ^ 2 ≥
        ∑ i ∈ Finset.Ico 1 3, (boost (-1) (fun i => if i = 1 then (1:ℝ) / 10 ^ 7 else 0) i - boost (-1) (fun _ => 0) i) ^ 2 - 1 / 10 ^ 12 := by
      have : (1:ℝ) / 10 ^ 12 ≥ (1 / 10 ^ 7) ^ 2 := by norm_num
      linarith
    simp only [test, decide_eq_true hc, decide_eq_true ht, ge_iff_le, decide_eq_false (not_le.2 ht), Bool.and_true]

end Causets
