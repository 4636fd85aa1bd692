import Verif.Props.SymmetryCurved
import Verif.Props.Sprinkle

/-! # C123 — the choice of the unit of length -/

namespace Causets

/-- **Specification.** All coordinates in a unit that is `1 / k` times as long. -/
noncomputable def rescale (k : ℝ) (x : Point) : Point := fun i => k * x i

/-- **Specification.** The spacetime of the same kind whose lengths (periods, radii) are in a unit that is `1 / k` times as long. -/
noncomputable def SpacetimeObj.rescale (k : ℝ) : SpacetimeObj → SpacetimeObj
  | .base => .base
  | .flat M => .flat { M with period := M.period.map fun ps => ps.map fun p => k * p }
  | .deSitter d a => .deSitter d (k * a)
  | .antiDeSitter d a => .antiDeSitter d (k * a)
  | .blackHole r m => .blackHole (k * r) m

section
variable {k : ℝ} (hk : 0 < k)
include hk

theorem k_ge (a b : ℝ) : test (k * a ≥ k * b) = test (a ≥ b) := test_congr (mul_le_mul_iff_right₀ hk)
theorem k_lt (a b : ℝ) : test (k * a < k * b) = test (a < b) := test_congr (mul_lt_mul_iff_right₀ hk)
theorem k_ge0 (a : ℝ) : test (k * a ≥ 0) = test (a ≥ 0) := by simpa using k_ge hk a 0
theorem k_lt0 (a : ℝ) : test (k * a < 0) = test (a < 0) := by simpa using k_lt hk a 0

theorem rescale_sum (s : Finset ℕ) (f : ℕ → ℝ) : ∑ i ∈ s, (k * f i) ^ 2 = k ^ 2 * ∑ i ∈ s, f i ^ 2 := by
  rw [Finset.mul_sum]
  exact Finset.sum_congr rfl fun i _ => by ring

theorem rescale_space (dim : ℕ) (x y : Point) : spaceSq dim (rescale k x) (rescale k y) = k ^ 2 * spaceSq dim x y := by
  unfold spaceSq rescale
  rw [← rescale_sum hk]
  exact Finset.sum_congr rfl fun i _ => by ring

theorem rescale_periodicDelta (p d : ℝ) : periodicDelta (k * p) (k * d) = k * periodicDelta p d := by
  unfold periodicDelta
  rw [abs_mul, abs_of_pos hk]
  by_cases h : p > 0
  · rw [if_pos h, if_pos (mul_pos hk h), ← mul_sub, mul_min_of_nonneg _ _ hk.le]
  · rw [if_neg h, if_neg (by rw [gt_iff_lt, mul_pos_iff_of_pos_left hk]; exact h)]

theorem rescale_sqrt (a : ℝ) : Real.sqrt (k ^ 2 * a) = k * Real.sqrt a := by
  rw [Real.sqrt_mul (sq_nonneg k), Real.sqrt_sq hk.le]

theorem rescale_flat (M : FlatSpacetime) (x y : Point) :
    (SpacetimeObj.rescale k (.flat M)).causality 0 (rescale k x) (rescale k y) = (SpacetimeObj.flat M).causality 0 x y := by
  have hk2 : 0 < k ^ 2 := by positivity
  simp only [SpacetimeObj.rescale, SpacetimeObj.causality, FlatSpacetime.causality]
  have hp : ∀ i, ((M.period.map fun ps => ps.map fun p => k * p).getD []).getD i 0 = k * (M.period.getD []).getD i 0 := by
    intro i
    rcases M.period with _ | ps
    · simp
    · simp only [Option.map_some, Option.getD_some, List.getD_eq_getElem?_getD, List.getElem?_map]
      rcases ps[i]? with _ | p <;> simp
  have ht : rescale k y 0 - rescale k x 0 = k * (y 0 - x 0) := by simp [rescale, mul_sub]
  have hr : ∀ i, rescale k y i - rescale k x i = k * (y i - x i) := by intro i; simp [rescale, mul_sub]
  split
  · unfold causalityBase
    rw [ht]
    dsimp only
    rw [k_ge0 hk, k_lt0 hk]
  split
  · split
    · unfold causalityFlat2D
      rw [ht, hr 1]
      dsimp only
      rw [k_ge0 hk, k_lt0 hk, sub_zero, sub_zero, abs_mul, abs_mul, abs_of_pos hk, k_ge hk]
    · unfold causalityFlat
      rw [ht, rescale_space hk]
      dsimp only
      rw [k_ge0 hk, k_lt0 hk, sub_zero, sub_zero, mul_pow, k_ge hk2]
  · split
    · unfold causalityFlat2DPeriodic
      dsimp only
      rw [ht, hr 1, hp, rescale_periodicDelta hk, k_ge0 hk, k_lt0 hk, sub_zero, sub_zero, abs_mul, abs_mul, abs_of_pos hk, k_ge hk]
    · unfold causalityFlatPeriodic
      dsimp only
      have : ∑ i ∈ Finset.Ico 1 M.dim, (periodicDelta (((M.period.map fun ps => ps.map fun p => k * p).getD []).getD (i - 1) 0) (rescale k y i - rescale k x i)) ^ 2 =
          k ^ 2 * ∑ i ∈ Finset.Ico 1 M.dim, (periodicDelta ((M.period.getD []).getD (i - 1) 0) (y i - x i)) ^ 2 := by
        rw [← rescale_sum hk]
        refine Finset.sum_congr rfl fun i _ => ?_
        rw [hr, hp, rescale_periodicDelta hk]
      rw [this, ht, k_ge0 hk, k_lt0 hk, sub_zero, sub_zero, mul_pow, k_ge hk2]

theorem rescale_dS (dim : ℕ) (alpha : ℝ) (x y : Point) : causalityDS 0 dim (k * alpha) (rescale k x) (rescale k y) = causalityDS 0 dim alpha x y := by
  have hk2 : 0 < k ^ 2 := by positivity
  have hn : ∀ x : Point, ∑ i ∈ Finset.Ico 1 dim, (rescale k x i) ^ 2 = k ^ 2 * ∑ i ∈ Finset.Ico 1 dim, (x i) ^ 2 := fun x => rescale_sum hk _ _
  have ht : ∀ x : Point, rescale k x 0 / (k * alpha) = x 0 / alpha := fun x => mul_div_mul_left _ _ hk.ne'
  unfold causalityDS
  dsimp only
  rw [hn, hn, ht, ht, rescale_space hk, mul_pow, k_ge hk2, k_ge hk2, ← mul_sub, ← mul_sub, rescale_sqrt hk, rescale_sqrt hk]
  split
  · rfl
  generalize Real.sqrt (alpha ^ 2 - ∑ i ∈ Finset.Ico 1 dim, (x i) ^ 2) = A
  generalize Real.sqrt (alpha ^ 2 - ∑ i ∈ Finset.Ico 1 dim, (y i) ^ 2) = B
  rw [mul_assoc, mul_assoc, mul_assoc, mul_assoc, ← mul_sub, ← mul_sub, k_ge0 hk, k_lt0 hk, mul_pow, mul_pow, ← mul_add, sub_zero, sub_zero, k_ge hk2]

theorem rescale_AdS (dim : ℕ) (alpha : ℝ) (x y : Point) : causalityAdS 0 dim (k * alpha) (rescale k x) (rescale k y) = causalityAdS 0 dim alpha x y := by
  have hk2 : 0 < k ^ 2 := by positivity
  have hn : ∀ x : Point, ∑ i ∈ Finset.Ico 1 dim, (rescale k x i) ^ 2 = k ^ 2 * ∑ i ∈ Finset.Ico 1 dim, (x i) ^ 2 := fun x => rescale_sum hk _ _
  have ht : ∀ x : Point, rescale k x 0 / (k * alpha) = x 0 / alpha := fun x => mul_div_mul_left _ _ hk.ne'
  unfold causalityAdS
  dsimp only
  rw [hn, hn, ht, ht, rescale_space hk, mul_pow, ← mul_add, ← mul_add, rescale_sqrt hk, rescale_sqrt hk]
  generalize Real.sqrt (alpha ^ 2 + ∑ i ∈ Finset.Ico 1 dim, (x i) ^ 2) = A
  generalize Real.sqrt (alpha ^ 2 + ∑ i ∈ Finset.Ico 1 dim, (y i) ^ 2) = B
  rw [mul_assoc, mul_assoc, mul_assoc, mul_assoc, ← mul_sub, ← mul_sub, k_ge0 hk, k_lt0 hk, mul_pow, mul_pow, ← mul_add, sub_zero, sub_zero, k_ge hk2]

theorem rescale_lightEF (rS r : ℝ) : lightEF (k * rS) 0 0 false (k * r) = k * lightEF rS 0 0 false r := by
  unfold lightEF
  simp only [Bool.false_eq_true, if_false]
  rw [← mul_sub, zero_sub, zero_sub, ← mul_neg, mul_div_mul_left _ _ hk.ne']
  ring

theorem rescale_lightS (rS r : ℝ) : lightS (k * rS) 0 0 false (k * r) = k * lightS rS 0 0 false r := by
  unfold lightS
  simp only [Bool.false_eq_true, if_false]
  rw [← mul_sub, zero_sub, zero_sub, ← mul_neg, mul_div_mul_left _ _ hk.ne']
  ring

theorem rescale_BH (metric : BHMetric) (rS : ℝ) (x y : Point) : causalityBH metric (k * rS) (rescale k x) (rescale k y) = causalityBH metric rS x y := by
  have hk2 : 0 < k ^ 2 := by positivity
  have hle : ∀ a b : ℝ, k * a ≤ k * b ↔ a ≤ b := fun a b => mul_le_mul_iff_right₀ hk
  have hlt : ∀ a b : ℝ, k * a < k * b ↔ a < b := fun a b => mul_lt_mul_iff_right₀ hk
  have h1 : rescale k x 1 * rescale k y 1 = k ^ 2 * (x 1 * y 1) := by simp only [rescale]; ring
  have ht : rescale k y 0 - rescale k x 0 = k * (y 0 - x 0) := by simp [rescale, mul_sub]
  have ha : ∀ x : Point, |rescale k x 1| = k * |x 1| := by intro x; simp only [rescale]; rw [abs_mul, abs_of_pos hk]
  have hn : ∀ a : ℝ, -(k * a) = k * -a := fun a => by ring
  have hi : ∀ (b : Bool) (u v : ℝ), (if b = true then k * u else k * v) = k * (if b = true then u else v) := by
    intro b u v
    cases b <;> rfl
  unfold causalityBH
  rw [h1, ht, ha, ha, k_lt0 hk2]
  by_cases hneg : test (x 1 * y 1 < 0) = true
  · rw [if_pos hneg, if_pos hneg]
  rw [if_neg hneg, if_neg hneg]
  dsimp only
  simp only [hlt, k_lt0 hk, hn]
  generalize (if test (metric = .schwarzschild ∧ (|x 1| < rS ∨ |y 1| < rS)) = true then test (|x 1| < |y 1|) else test (y 0 - x 0 < 0)) = b
  simp only [hi, hle]
  generalize (if b = true then |y 1| else |x 1|) = rx
  generalize (if b = true then |x 1| else |y 1|) = ry
  generalize (if b = true then -(y 0 - x 0) else y 0 - x 0) = t
  cases metric with
  | schwarzschild =>
    simp only [if_true, rescale_lightS hk, ← mul_sub, hn, ge_iff_le, hle]
  | eddingtonFinkelstein =>
    simp only [reduceCtorEq, if_false, rescale_lightEF hk, ← mul_sub, ge_iff_le, hle]

/-- **C123, causality.** With exact comparisons (tolerance 0) the unit of length does not matter, for every spacetime, whatever its dimension, periods, radius and metric. -/
theorem C123_causality (M : SpacetimeObj) (x y : Point) : (M.rescale k).causality 0 (rescale k x) (rescale k y) = M.causality 0 x y := by
  cases M with
  | base =>
    have ht : rescale k y 0 - rescale k x 0 = k * (y 0 - x 0) := by simp [rescale, mul_sub]
    simp only [SpacetimeObj.rescale, SpacetimeObj.causality, causalityBase]
    rw [ht, k_ge0 hk, k_lt0 hk]
  | flat M => exact rescale_flat hk M x y
  | deSitter d a => exact rescale_dS hk d a x y
  | antiDeSitter d a => exact rescale_AdS hk d a x y
  | blackHole r m => exact rescale_BH hk m r x y

/-- **C123, causal sets.** With exact comparisons `create` gives the same causal set in every unit. -/
theorem C123_create (M : SpacetimeObj) (it : Iter) (C : Finset EId) (coords : List Point) (fmt : Option (ℕ → String)) (doRelate : Bool) (w : World Point) :
    let r := create (M.causality 0) it C coords fmt doRelate w
    create ((M.rescale k).causality 0) it C (coords.map (rescale k)) fmt doRelate (w.moved (rescale k)) = (r.1, r.2.1, r.2.2.1, r.2.2.2.moved (rescale k)) :=
  C122_create (M.causality 0) ((M.rescale k).causality 0) (rescale k) Set.univ (fun x _ y _ => C123_causality hk M x y) it C coords (fun _ _ => trivial) fmt doRelate w (fun _ _ _ _ => trivial)

/-- **Specification.** The region with all lengths in a unit that is `1 / k` times as long. -/
noncomputable def CoordinateShape.rescale (k : ℝ) (S : CoordinateShape) : CoordinateShape :=
  { S with center := S.center.map fun c => k * c, radius := S.radius.map fun r => k * r, duration := S.duration.map fun t => k * t, edge := S.edge.map fun a => k * a,
           edges := S.edges.map fun as => as.map fun a => k * a }

theorem map_mul_getD (l : List ℝ) (j : ℕ) : (l.map fun c => k * c).getD j 0 = k * l.getD j 0 := by
  simp only [List.getD_eq_getElem?_getD, List.getElem?_map]
  rcases l[j]? with _ | p <;> simp

theorem opt_mul_getD (o : Option ℝ) : (o.map fun c => k * c).getD 0 = k * o.getD 0 := by
  rcases o with _ | p <;> simp

theorem optList_mul_getD (o : Option (List ℝ)) (j : ℕ) : ((o.map fun as => as.map fun a => k * a).getD []).getD j 0 = k * (o.getD []).getD j 0 := by
  rcases o with _ | p
  · simp
  · exact map_mul_getD hk p j

theorem uniform_mul (R : Draws) (l : List ℕ) (a b : ℝ) : R.uniform l (k * a) (k * b) = k * R.uniform l a b := by
  unfold Draws.uniform
  ring

/-- **C123, regions.** A point is in the region iff it is in the rescaled region, for every kind of region. -/
theorem C123_region (S : CoordinateShape) (x : Point) : rescale k x ∈ (S.rescale k).region ↔ x ∈ S.region := by
  have hc : ∀ i, (S.rescale k).centerPoint i = k * S.centerPoint i := fun i => map_mul_getD hk S.center i
  have hle : ∀ a b : ℝ, k * a ≤ k * b ↔ a ≤ b := fun a b => mul_le_mul_iff_right₀ hk
  have habs : ∀ i, |rescale k x i - (S.rescale k).centerPoint i| = k * |x i - S.centerPoint i| := by
    intro i
    rw [hc]
    simp only [rescale]
    rw [← mul_sub, abs_mul, abs_of_pos hk]
  have hdist : ∀ a, distFrom a S.dim (S.rescale k).centerPoint (rescale k x) = k * distFrom a S.dim S.centerPoint x := by
    intro a
    unfold distFrom
    rw [← rescale_sqrt hk, ← rescale_sum hk]
    congr 1
    refine Finset.sum_congr rfl fun i _ => ?_
    rw [hc]
    simp only [rescale]
    ring
  have hr : (S.rescale k).radius.getD 0 = k * S.radius.getD 0 := opt_mul_getD hk _
  have hhr : ∀ h : ℝ, h * (k * S.radius.getD 0) = k * (h * S.radius.getD 0) := fun h => by ring
  have hh : (S.rescale k).hollow = S.hollow := rfl
  have hn : (S.rescale k).name = S.name := rfl
  have hd : (S.rescale k).dim = S.dim := rfl
  have hdiv : ∀ a : ℝ, k * a / 2 = k * (a / 2) := fun a => by ring
  unfold CoordinateShape.region
  rw [hn, hd, hr, hh]
  by_cases h1 : S.name = "ball"
  · rw [if_pos h1, if_pos h1]
    simp only [ballRegion, Set.mem_setOf_eq, hdist, hhr, hle]
  rw [if_neg h1, if_neg h1]
  by_cases h2 : S.name = "bicone"
  · rw [if_pos h2, if_pos h2]
    simp only [biconeRegion, Set.mem_setOf_eq, hdist, habs, hhr, ← mul_add, hle]
  rw [if_neg h2, if_neg h2]
  by_cases h3 : S.name = "cylinder"
  · rw [if_pos h3, if_pos h3]
    have ht : (S.rescale k).duration.getD 0 = k * S.duration.getD 0 := opt_mul_getD hk _
    simp only [cylinderRegion, Set.mem_setOf_eq, hdist, habs, hhr, ht, hdiv, hle]
  rw [if_neg h3, if_neg h3]
  by_cases h4 : S.name = "cube"
  · rw [if_pos h4, if_pos h4]
    have he : (S.rescale k).edge.getD 0 = k * S.edge.getD 0 := opt_mul_getD hk _
    simp only [cuboidRegion, Set.mem_setOf_eq, habs, he, hdiv, hle]
  · rw [if_neg h4, if_neg h4]
    have he : ∀ i, ((S.rescale k).edges.getD []).getD i 0 = k * (S.edges.getD []).getD i 0 := fun i => optList_mul_getD hk _ i
    simp only [cuboidRegion, Set.mem_setOf_eq, habs, he, hdiv, hle]

/-- **C123, sprinkled points.** With the same random numbers the points sprinkled into the rescaled region are the rescaled points, for every kind of region. -/
theorem C123_sprinkle (R : Draws) (junk : ℕ → Point) (dim : ℕ) (count : ℤ) (S : CoordinateShape) :
    sprinkleCoords R (fun i => rescale k (junk i)) dim count (S.rescale k) = (sprinkleCoords R junk dim count S).map fun rows => rows.map (rescale k) := by
  have hr : (S.rescale k).radius.getD 0 = k * S.radius.getD 0 := opt_mul_getD hk _
  have hc : ∀ j, (S.rescale k).center.getD j 0 = k * S.center.getD j 0 := fun j => map_mul_getD hk S.center j
  have ht : (S.rescale k).duration.getD 0 = k * S.duration.getD 0 := opt_mul_getD hk _
  have he : (S.rescale k).edge.getD 0 = k * S.edge.getD 0 := opt_mul_getD hk _
  have hes : ∀ i, ((S.rescale k).edges.getD []).getD i 0 = k * (S.edges.getD []).getD i 0 := fun i => optList_mul_getD hk _ i
  have hh : (S.rescale k).hollow = S.hollow := rfl
  have hn : (S.rescale k).name = S.name := rfl
  have hdiv : ∀ a : ℝ, k * a / 2 = k * (a / 2) := fun a => by ring
  have e1 : sprinkleCuboid R dim (S.rescale k) = fun i => rescale k (sprinkleCuboid R dim S i) := by
    funext i j
    simp only [sprinkleCuboid, rescale, hn, he, hes, hc]
    by_cases hj : j < dim
    · rw [if_pos hj, if_pos hj]
      by_cases h : S.name = "cuboid"
      · rw [if_pos h, if_pos h, hdiv, ← mul_sub, ← mul_add, uniform_mul hk]
      · rw [if_neg h, if_neg h, hdiv, ← mul_sub, ← mul_add, uniform_mul hk]
    · rw [if_neg hj, if_neg hj, mul_zero]
  have e2 : sprinkleBall R (fun i => rescale k (junk i)) dim (S.rescale k) = fun i => rescale k (sprinkleBall R junk dim S i) := by
    funext i j
    simp only [sprinkleBall, rescale, hn, hr, hh, hc, ht]
    generalize (if S.name = "ball" then 0 else 1) = d
    by_cases hj : j < d
    · rw [if_pos hj, if_pos hj]
      by_cases h1 : S.name = "cylinder"
      · rw [if_pos h1, if_pos h1, hdiv, ← mul_sub, ← mul_add, uniform_mul hk]
      rw [if_neg h1, if_neg h1]
      by_cases h2 : S.name = "diamond"
      · rw [if_pos h2, if_pos h2]
        ring
      · rw [if_neg h2, if_neg h2]
    · rw [if_neg hj, if_neg hj]
      by_cases hj2 : j < dim
      · rw [if_pos hj2, if_pos hj2]
        ring
      · rw [if_neg hj2, if_neg hj2, mul_zero]
  have e3 : ∀ a b : ℝ, point2 (a * (k * S.radius.getD 0 / 2)) (b * (k * S.radius.getD 0 / 2)) = rescale k (point2 (a * (S.radius.getD 0 / 2)) (b * (S.radius.getD 0 / 2))) := by
    intro a b
    funext j
    simp only [point2, rescale]
    split_ifs <;> ring
  unfold sprinkleCoords
  rw [hn, e1, e2, hr]
  by_cases hneg : count < 0
  · rw [if_pos hneg, if_pos hneg]
    rfl
  rw [if_neg hneg, if_neg hneg]
  dsimp only
  simp only [e3]
  split_ifs <;> simp [Except.map, Function.comp_def]

end

/-- **C123, refuted with the tolerance of the code.** In a large enough unit of length every two points of Minkowski spacetime are causally related: the tolerance `1e-12` is an absolute number. -/
theorem C123_refuted (M : FlatSpacetime) (hd : 2 ≤ M.dim) (hp : M.isPeriodic = false) (x y : Point) : ∃ k0 : ℝ, 0 < k0 ∧ ∀ k, 0 < k → k ≤ k0 →
    ((SpacetimeObj.rescale k (.flat M)).causality causalityEps (rescale k x) (rescale k y)).1 = true ∨
    ((SpacetimeObj.rescale k (.flat M)).causality causalityEps (rescale k x) (rescale k y)).2 = true := by
  have heps : (0:ℝ) < causalityEps := by unfold causalityEps; positivity
  have dir : ∀ (t : ℝ) (p : Bool), p = true → (test (t ≥ 0) && p) = true ∨ (test (t < 0) && p) = true := by
    intro t p hp
    rw [hp]
    rcases le_or_gt 0 t with h | h
    · left; simp [test, h]
    · right; simp [test, h]
  by_cases h2 : M.dim = 2
  · refine ⟨causalityEps / (|y 1 - x 1| + 1), by positivity, fun k hk hk0 => ?_⟩
    rw [le_div_iff₀ (by positivity)] at hk0
    simp only [SpacetimeObj.rescale, SpacetimeObj.causality, FlatSpacetime.causality, hp]
    rw [if_neg (by omega), if_pos (by rfl), if_pos h2]
    unfold causalityFlat2D
    refine dir _ _ (decide_eq_true ?_)
    have : |rescale k y 1 - rescale k x 1| = k * |y 1 - x 1| := by
      simp only [rescale]
      rw [← mul_sub, abs_mul, abs_of_pos hk]
    rw [this]
    have := abs_nonneg (rescale k y 0 - rescale k x 0)
    rw [ge_iff_le]
    nlinarith
  · have hS : 0 ≤ spaceSq M.dim x y := Finset.sum_nonneg fun _ _ => sq_nonneg _
    refine ⟨min 1 (causalityEps / (spaceSq M.dim x y + 1)), by positivity, fun k hk hk0 => ?_⟩
    have hk1 := le_trans hk0 (min_le_left _ _)
    have hk2 := le_trans hk0 (min_le_right _ _)
    rw [le_div_iff₀ (by positivity)] at hk2
    simp only [SpacetimeObj.rescale, SpacetimeObj.causality, FlatSpacetime.causality, hp]
    rw [if_neg (by omega), if_pos (by rfl), if_neg h2]
    unfold causalityFlat
    refine dir _ _ (decide_eq_true ?_)
    rw [rescale_space hk]
    have := sq_nonneg (rescale k y 0 - rescale k x 0)
    have h3 : k ^ 2 * spaceSq M.dim x y ≤ k * spaceSq M.dim x y := by
      refine mul_le_mul_of_nonneg_right ?_ hS
      nlinarith
    rw [ge_iff_le]
    nlinarith

/-- **C123, refuted, with numbers.** The points (0, 0, 0) and (0, 1, 0) of Minkowski spacetime are not related; if the coordinates are given in a unit that is ten million times as long they are. -/
theorem C123_unit_refuted : ∃ (M : FlatSpacetime) (x y : Point), FlatSpacetime.init 3 (.float 0) = .ok M ∧
    M.causality causalityEps x y = (false, false) ∧ M.causality causalityEps (rescale (1 / 10 ^ 7) x) (rescale (1 / 10 ^ 7) y) = (true, false) := by
  have hM : (⟨3, false, none⟩ : FlatSpacetime).causality causalityEps = causalityFlat causalityEps 3 := by simp [FlatSpacetime.causality]
  have hs : spaceSq 3 (fun _ => 0 : Point) (fun i => if i = 1 then 1 else 0 : Point) = 1 := by
    unfold spaceSq
    rw [show Finset.Ico 1 3 = {1, 2} by rfl]
    norm_num
  refine ⟨⟨3, false, none⟩, fun _ => 0, fun i => if i = 1 then 1 else 0, by simp [FlatSpacetime.init], ?_, ?_⟩
  · rw [hM]
    unfold causalityFlat
    dsimp only
    rw [hs]
    unfold causalityEps
    norm_num [test]
  · rw [hM]
    unfold causalityFlat
    dsimp only
    rw [rescale_space (by norm_num), hs]
    unfold causalityEps rescale
    norm_num [test]

end Causets
