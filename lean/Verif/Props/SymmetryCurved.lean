import Verif.Props.SymmetryMaps

/-! # C122 — symmetries of curved spacetimes -/

namespace Causets

/-- all points later by `τ` -/
noncomputable def timeShift (τ : ℝ) (x : Point) : Point := fun i => if i = 0 then x 0 + τ else x i

/-- the reflection of the radial coordinate -/
noncomputable def mirror (x : Point) : Point := fun i => if i = 1 then - x 1 else x i

/-- **Specification.** A rotation or reflection of space about the origin. -/
structure OriginMap (dim : ℕ) (f : Point → Point) : Prop where
  time : ∀ x, f x 0 = x 0
  norm : ∀ x, ∑ i ∈ Finset.Ico 1 dim, (f x i) ^ 2 = ∑ i ∈ Finset.Ico 1 dim, (x i) ^ 2
  space : ∀ x y, ∑ i ∈ Finset.Ico 1 dim, (f y i - f x i) ^ 2 = ∑ i ∈ Finset.Ico 1 dim, (y i - x i) ^ 2

theorem timeShift_norm (τ : ℝ) (dim : ℕ) (x : Point) : ∑ i ∈ Finset.Ico 1 dim, (timeShift τ x i) ^ 2 = ∑ i ∈ Finset.Ico 1 dim, (x i) ^ 2 := by
  refine Finset.sum_congr rfl fun i hi => ?_
  rw [Finset.mem_Ico] at hi
  simp only [timeShift]
  rw [if_neg (by omega)]

theorem timeShift_space (τ : ℝ) (dim : ℕ) (x y : Point) : spaceSq dim (timeShift τ x) (timeShift τ y) = spaceSq dim x y := by
  unfold spaceSq
  refine Finset.sum_congr rfl fun i hi => ?_
  rw [Finset.mem_Ico] at hi
  simp only [timeShift]
  rw [if_neg (by omega), if_neg (by omega)]

theorem timeShift_zero (τ : ℝ) (x : Point) : timeShift τ x 0 = x 0 + τ := by simp [timeShift]
theorem timeShift_one (τ : ℝ) (x : Point) : timeShift τ x 1 = x 1 := by simp [timeShift]

/-- **C122, rotations of (anti-)de Sitter spacetime.** Rotations and reflections of space about the origin give the same values with every tolerance. -/
theorem C122_curved_rotations (eps : ℝ) (dim : ℕ) (alpha : ℝ) (f : Point → Point) (hf : OriginMap dim f) (x y : Point) :
    causalityDS eps dim alpha (f x) (f y) = causalityDS eps dim alpha x y ∧ causalityAdS eps dim alpha (f x) (f y) = causalityAdS eps dim alpha x y := by
  constructor
  · unfold causalityDS spaceSq
    rw [hf.norm, hf.norm, hf.space, hf.time, hf.time]
  · unfold causalityAdS spaceSq
    rw [hf.norm, hf.norm, hf.space, hf.time, hf.time]

/-- **C122, translations of time in de Sitter spacetime.** Whether two points are causally related does not depend on the origin of time, with every tolerance; with exact comparisons (tolerance 0) neither
does the direction of the relation. -/
theorem C122_deSitter_time (eps : ℝ) (dim : ℕ) (alpha τ : ℝ) (x y : Point) :
    ((causalityDS eps dim alpha (timeShift τ x) (timeShift τ y)).1 || (causalityDS eps dim alpha (timeShift τ x) (timeShift τ y)).2) =
      ((causalityDS eps dim alpha x y).1 || (causalityDS eps dim alpha x y).2) ∧
    causalityDS 0 dim alpha (timeShift τ x) (timeShift τ y) = causalityDS 0 dim alpha x y ∧
    (causalityDS eps dim alpha x y = causalityDS 0 dim alpha x y → causalityDS eps dim alpha (timeShift τ x) (timeShift τ y) = causalityDS 0 dim alpha (timeShift τ x) (timeShift τ y) →
      causalityDS eps dim alpha (timeShift τ x) (timeShift τ y) = causalityDS eps dim alpha x y) := by
  have hor : ∀ a b : ℝ, (test (a ≥ b) || test (a < b)) = true := by
    intro a b
    rcases le_or_gt b a with h | h <;> simp [test, h]
  have key : ∀ A B : ℝ,
      let D0 := B * Real.sinh (y 0 / alpha) - A * Real.sinh (x 0 / alpha)
      let D1 := B * Real.cosh (y 0 / alpha) - A * Real.cosh (x 0 / alpha)
      B * Real.sinh ((y 0 + τ) / alpha) - A * Real.sinh ((x 0 + τ) / alpha) = Real.cosh (τ / alpha) * D0 + Real.sinh (τ / alpha) * D1 ∧
      B * Real.cosh ((y 0 + τ) / alpha) - A * Real.cosh ((x 0 + τ) / alpha) = Real.sinh (τ / alpha) * D0 + Real.cosh (τ / alpha) * D1 := by
    intro A B D0 D1
    simp only [D0, D1, add_div, Real.sinh_add, Real.cosh_add]
    constructor <;> ring
  have iff : ∀ (eps S D0 D1 : ℝ), (Real.cosh (τ / alpha) * D0 + Real.sinh (τ / alpha) * D1) ^ 2 ≥ S + (Real.sinh (τ / alpha) * D0 + Real.cosh (τ / alpha) * D1) ^ 2 - eps ↔
      D0 ^ 2 ≥ S + D1 ^ 2 - eps := by
    intro eps S D0 D1
    have := boost_identity (τ / alpha) D0 D1
    constructor <;> intro h <;> linarith
  have hS : 0 ≤ spaceSq dim x y := Finset.sum_nonneg fun _ _ => sq_nonneg _
  have h0 : causalityDS 0 dim alpha (timeShift τ x) (timeShift τ y) = causalityDS 0 dim alpha x y := by
    unfold causalityDS
    rw [timeShift_norm, timeShift_norm, timeShift_space, timeShift_zero, timeShift_zero]
    dsimp only
    split
    · rfl
    rw [(key _ _).1, (key _ _).2]
    generalize Real.sqrt (alpha ^ 2 - ∑ i ∈ Finset.Ico 1 dim, (x i) ^ 2) = A
    generalize Real.sqrt (alpha ^ 2 - ∑ i ∈ Finset.Ico 1 dim, (y i) ^ 2) = B
    generalize B * Real.sinh (y 0 / alpha) - A * Real.sinh (x 0 / alpha) = D0
    generalize B * Real.cosh (y 0 / alpha) - A * Real.cosh (x 0 / alpha) = D1
    rw [test_congr (iff 0 (spaceSq dim x y) D0 D1)]
    by_cases h : D0 ^ 2 ≥ spaceSq dim x y + D1 ^ 2 - 0
    · have ht := boost_time (τ / alpha) D0 D1 (by linarith)
      have e1 : test (Real.cosh (τ / alpha) * D0 + Real.sinh (τ / alpha) * D1 ≥ 0) = test (D0 ≥ 0) := test_congr ht.symm
      have e2 : test (Real.cosh (τ / alpha) * D0 + Real.sinh (τ / alpha) * D1 < 0) = test (D0 < 0) := test_congr (by rw [← not_le, ← not_le]; exact not_congr ht.symm)
      rw [e1, e2]
    · have : test (D0 ^ 2 ≥ spaceSq dim x y + D1 ^ 2 - 0) = false := decide_eq_false h
      rw [this, Bool.and_false, Bool.and_false, Bool.and_false, Bool.and_false]
  refine ⟨?_, h0, fun h1 h2 => by rw [h1, h2, h0]⟩
  unfold causalityDS
  rw [timeShift_norm, timeShift_norm, timeShift_space, timeShift_zero, timeShift_zero]
  dsimp only
  split
  · rfl
  rw [(key _ _).1, (key _ _).2]
  simp only [← Bool.and_or_distrib_right, hor, Bool.true_and]
  exact test_congr (iff _ _ _ _)

/-- **C122, translations of time in anti-de Sitter spacetime.** Whether two points are causally related does not depend on the origin of time. But if all points are later by `π` times the radius, all
relations have the opposite direction (of points whose embedding times are not equal). -/
theorem C122_antiDeSitter_time (eps : ℝ) (dim : ℕ) (alpha : ℝ) (x y : Point) :
    (∀ τ, ((causalityAdS eps dim alpha (timeShift τ x) (timeShift τ y)).1 || (causalityAdS eps dim alpha (timeShift τ x) (timeShift τ y)).2) =
      ((causalityAdS eps dim alpha x y).1 || (causalityAdS eps dim alpha x y).2)) ∧
    (alpha ≠ 0 → Real.sqrt (alpha ^ 2 + ∑ i ∈ Finset.Ico 1 dim, (x i) ^ 2) * Real.sin (x 0 / alpha) ≠ Real.sqrt (alpha ^ 2 + ∑ i ∈ Finset.Ico 1 dim, (y i) ^ 2) * Real.sin (y 0 / alpha) →
      causalityAdS eps dim alpha (timeShift (Real.pi * alpha) x) (timeShift (Real.pi * alpha) y) = (causalityAdS eps dim alpha x y).swap) := by
  have hor : ∀ a b : ℝ, (test (a ≥ b) || test (a < b)) = true := by
    intro a b
    rcases le_or_gt b a with h | h <;> simp [test, h]
  constructor
  · intro τ
    unfold causalityAdS
    rw [timeShift_norm, timeShift_norm, timeShift_space, timeShift_zero, timeShift_zero]
    dsimp only
    simp only [← Bool.and_or_distrib_right, hor, Bool.true_and]
    refine test_congr ?_
    simp only [add_div, Real.sin_add, Real.cos_add]
    generalize Real.sqrt (alpha ^ 2 + ∑ i ∈ Finset.Ico 1 dim, (x i) ^ 2) = A
    generalize Real.sqrt (alpha ^ 2 + ∑ i ∈ Finset.Ico 1 dim, (y i) ^ 2) = B
    have : (B * (Real.sin (y 0 / alpha) * Real.cos (τ / alpha) + Real.cos (y 0 / alpha) * Real.sin (τ / alpha)) -
          A * (Real.sin (x 0 / alpha) * Real.cos (τ / alpha) + Real.cos (x 0 / alpha) * Real.sin (τ / alpha))) ^ 2 +
        (B * (Real.cos (y 0 / alpha) * Real.cos (τ / alpha) - Real.sin (y 0 / alpha) * Real.sin (τ / alpha)) -
          A * (Real.cos (x 0 / alpha) * Real.cos (τ / alpha) - Real.sin (x 0 / alpha) * Real.sin (τ / alpha))) ^ 2 =
        (B * Real.sin (y 0 / alpha) - A * Real.sin (x 0 / alpha)) ^ 2 + (B * Real.cos (y 0 / alpha) - A * Real.cos (x 0 / alpha)) ^ 2 := by
      have hcs := Real.sin_sq_add_cos_sq (τ / alpha)
      linear_combination ((B * Real.sin (y 0 / alpha) - A * Real.sin (x 0 / alpha)) ^ 2 + (B * Real.cos (y 0 / alpha) - A * Real.cos (x 0 / alpha)) ^ 2) * hcs
    rw [this]
  · intro ha hne
    unfold causalityAdS
    rw [timeShift_norm, timeShift_norm, timeShift_space, timeShift_zero, timeShift_zero]
    dsimp only
    have e : ∀ t : ℝ, (t + Real.pi * alpha) / alpha = t / alpha + Real.pi := by
      intro t
      field_simp
    rw [e, e, Real.sin_add_pi, Real.sin_add_pi, Real.cos_add_pi, Real.cos_add_pi]
    generalize Real.sqrt (alpha ^ 2 + ∑ i ∈ Finset.Ico 1 dim, (x i) ^ 2) = A at hne ⊢
    generalize Real.sqrt (alpha ^ 2 + ∑ i ∈ Finset.Ico 1 dim, (y i) ^ 2) = B at hne ⊢
    have e1 : B * -Real.sin (y 0 / alpha) - A * -Real.sin (x 0 / alpha) = -(B * Real.sin (y 0 / alpha) - A * Real.sin (x 0 / alpha)) := by ring
    have e2 : B * -Real.cos (y 0 / alpha) - A * -Real.cos (x 0 / alpha) = -(B * Real.cos (y 0 / alpha) - A * Real.cos (x 0 / alpha)) := by ring
    rw [e1, e2, neg_sq, neg_sq]
    have hD : B * Real.sin (y 0 / alpha) - A * Real.sin (x 0 / alpha) ≠ 0 := sub_ne_zero.2 (Ne.symm hne)
    generalize B * Real.sin (y 0 / alpha) - A * Real.sin (x 0 / alpha) = D at hD ⊢
    have s1 : test (-D ≥ 0) = test (D < 0) := test_congr ⟨fun h => lt_of_le_of_ne (by linarith) hD, fun h => by linarith⟩
    have s2 : test (-D < 0) = test (D ≥ 0) := test_congr ⟨fun h => by linarith, fun h => by have := lt_of_le_of_ne h (Ne.symm hD); linarith⟩
    rw [s1, s2]
    rfl

/-- **C122, refuted for anti-de Sitter spacetime.** The points (0, 0) and (1, 0) of the two-dimensional anti-de Sitter spacetime of radius 1 are causally related, and if both times are larger by `π` the
relation is reversed. -/
theorem C122_antiDeSitter_refuted : ∃ x y : Point, causalityAdS causalityEps 2 1 x y = (true, false) ∧
    causalityAdS causalityEps 2 1 (timeShift Real.pi x) (timeShift Real.pi y) = (false, true) := by
  have hs : 0 < Real.sin 1 := Real.sin_pos_of_pos_of_lt_pi one_pos (by linarith [Real.two_le_pi])
  have hxy : causalityAdS causalityEps 2 1 (fun _ => 0) (fun i => if i = 0 then 1 else 0) = (true, false) := by
    unfold causalityAdS
    have e1 : ∑ i ∈ Finset.Ico 1 2, ((fun _ => 0 : Point) i) ^ 2 = 0 := by simp
    have e2 : ∑ i ∈ Finset.Ico 1 2, ((fun i => if i = 0 then 1 else 0 : Point) i) ^ 2 = 0 := by simp
    have e3 : spaceSq 2 (fun _ => 0 : Point) (fun i => if i = 0 then 1 else 0 : Point) = 0 := by simp [spaceSq]
    rw [e1, e2, e3]
    dsimp only
    simp only [if_true, one_pow, add_zero, Real.sqrt_one, one_mul, div_one, zero_div, Real.sin_zero, sub_zero]
    have h1 : test (Real.sin 1 ≥ 0) = true := decide_eq_true hs.le
    have h2 : test (Real.sin 1 < 0) = false := decide_eq_false (not_lt.2 hs.le)
    have h3 : test (Real.sin 1 ^ 2 + (Real.cos 1 - Real.cos 0) ^ 2 ≥ 0 - causalityEps) = true := by
      refine decide_eq_true ?_
      have : (0:ℝ) < causalityEps := by unfold causalityEps; positivity
      nlinarith [sq_nonneg (Real.sin 1), sq_nonneg (Real.cos 1 - Real.cos 0)]
    rw [h1, h2, h3]
    rfl
  refine ⟨fun _ => 0, fun i => if i = 0 then 1 else 0, hxy, ?_⟩
  have := (C122_antiDeSitter_time causalityEps 2 1 (fun _ => 0) (fun i => if i = 0 then 1 else 0)).2 one_ne_zero (by simpa using hs.ne)
  rw [mul_one] at this
  rw [this, hxy]
  rfl

/-- **C122, black holes.** Translations of time and the reflection of the radial coordinate give the same values (also with NumPy's values on the horizon). -/
theorem C122_blackHole (metric : BHMetric) (rS τ : ℝ) (x y : Point) :
    causalityBH metric rS (timeShift τ x) (timeShift τ y) = causalityBH metric rS x y ∧ causalityBH metric rS (mirror x) (mirror y) = causalityBH metric rS x y ∧
    causalityBHNp metric rS (timeShift τ x) (timeShift τ y) = causalityBHNp metric rS x y ∧ causalityBHNp metric rS (mirror x) (mirror y) = causalityBHNp metric rS x y := by
  have e : y 0 + τ - (x 0 + τ) = y 0 - x 0 := by ring
  have m0 : ∀ x : Point, mirror x 0 = x 0 := fun x => by simp [mirror]
  have m1 : ∀ x : Point, mirror x 1 = - x 1 := fun x => by simp [mirror]
  refine ⟨?_, ?_, ?_, ?_⟩
  · unfold causalityBH
    rw [timeShift_zero, timeShift_zero, timeShift_one, timeShift_one, e]
  · unfold causalityBH
    rw [m0, m0, m1, m1, neg_mul_neg, abs_neg, abs_neg]
  · unfold causalityBHNp
    rw [timeShift_zero, timeShift_zero, timeShift_one, timeShift_one, e]
  · unfold causalityBHNp
    rw [m0, m0, m1, m1, neg_mul_neg, abs_neg, abs_neg]

/-- A rotation of space by a right angle about the origin is a symmetry. -/
theorem quarter_turn (dim : ℕ) (hd : 3 ≤ dim) : OriginMap dim (fun x i => if i = 1 then - x 2 else if i = 2 then x 1 else x i) := by
  have split : ∀ f : ℕ → ℝ, ∑ i ∈ Finset.Ico 1 dim, f i = f 1 + (f 2 + ∑ i ∈ Finset.Ico 3 dim, f i) := by
    intro f
    rw [Finset.sum_eq_sum_Ico_succ_bot (by omega), Finset.sum_eq_sum_Ico_succ_bot (by omega)]
  have tail : ∀ (g h : ℕ → ℝ), (∀ i, 3 ≤ i → g i = h i) → ∑ i ∈ Finset.Ico 3 dim, g i = ∑ i ∈ Finset.Ico 3 dim, h i := by
    intro g h hh
    refine Finset.sum_congr rfl fun i hi => hh i (Finset.mem_Ico.1 hi).1
  refine ⟨fun x => by simp, fun x => ?_, fun x y => ?_⟩
  · rw [split, split, tail _ (fun i => (x i) ^ 2) fun i hi => by rw [if_neg (by omega), if_neg (by omega)]]
    norm_num
    ring
  · rw [split, split, tail _ (fun i => (y i - x i) ^ 2) fun i hi => by rw [if_neg (by omega), if_neg (by omega), if_neg (by omega), if_neg (by omega)]]
    norm_num
    ring

/-- The hypotheses of `C122_create` hold for a boost of three-dimensional Minkowski spacetime with exact comparisons and three points. -/
example : (∀ x ∈ (Set.univ : Set Point), ∀ y ∈ (Set.univ : Set Point),
      (⟨3, false, none⟩ : FlatSpacetime).causality 0 (boost 1 x) (boost 1 y) = (⟨3, false, none⟩ : FlatSpacetime).causality 0 x y) ∧
    (∀ x ∈ ([fun _ => 0, fun i => if i = 0 then 1 else 0, fun i => if i = 1 then 2 else 0] : List Point), x ∈ (Set.univ : Set Point)) :=
  ⟨fun x _ y _ => (C122_Minkowski ⟨3, false, none⟩ (by norm_num) rfl (boost 1) (C122_boost 3 (by norm_num) 1) x y).1, fun _ _ => trivial⟩

end Causets
