import Verif.Props.SpacetimeOrder

/-! # C113 — the regions of spacetime are causally convex

A causal set sprinkled on a region contains the whole causal intervals of its events only if the region contains, with two points, all points between them.
Here it is decided for which shapes and spacetimes this is so. -/

namespace Causets

open CoordinateShape

/-! ## Specification -/

/-- **Specification.** `R` contains all points between its points. -/
def CausallyConvex (le : Point → Point → Prop) (R : Set Point) : Prop := ∀ x ∈ R, ∀ y ∈ R, ∀ z, le x z → le z y → z ∈ R

/-- **Specification.** The same up to a shift by periods. -/
def CausallyConvexMod (period : ℕ → ℝ) (le : Point → Point → Prop) (R : Set Point) : Prop :=
  ∀ x ∈ R, ∀ y ∈ R, ∀ z, le x z → le z y → ∃ k, image period k z ∈ R

/-- the causality function of the spacetime (without tolerance) answers "the first point precedes the second" -/
def SpacetimeObj.Says (M : SpacetimeObj) (x y : Point) : Prop := (M.causality 0 x y).1 = true

/-! ## Points in the plane through the centre -/

/-- the point at time `a` and position `b` (along the first spatial direction) from `c` -/
noncomputable def planePt (c : Point) (a b : ℝ) : Point := fun i => if i = 0 then c 0 + a else if i = 1 then c 1 + b else c i

theorem planePt_sum (c d : Point) (h : ∀ i, 2 ≤ i → d i = c i) {dim : ℕ} (hd : 2 ≤ dim) : ∑ i ∈ Finset.Ico 1 dim, (d i - c i) ^ 2 = (d 1 - c 1) ^ 2 := by
  rw [Finset.sum_eq_single 1]
  · intro i hi h1
    rw [Finset.mem_Ico] at hi
    rw [h i (by omega)]; ring
  · intro h1; exact absurd (Finset.mem_Ico.2 ⟨le_refl 1, hd⟩) h1

theorem planePt_dist1 (c : Point) (a b : ℝ) {dim : ℕ} (hd : 2 ≤ dim) : distFrom 1 dim c (planePt c a b) = |b| := by
  unfold distFrom
  rw [planePt_sum c _ (fun i hi => by simp [planePt, show i ≠ 0 by omega, show i ≠ 1 by omega]) hd]
  have : (planePt c a b 1 - c 1) ^ 2 = b ^ 2 := by simp [planePt]
  rw [this, Real.sqrt_sq_eq_abs]

theorem planePt_dist0 (c : Point) (a b : ℝ) {dim : ℕ} (hd : 2 ≤ dim) : distFrom 0 dim c (planePt c a b) = Real.sqrt (a ^ 2 + b ^ 2) := by
  unfold distFrom
  rw [Finset.sum_eq_sum_Ico_succ_bot (by omega), planePt_sum c _ (fun i hi => by simp [planePt, show i ≠ 0 by omega, show i ≠ 1 by omega]) hd]
  congr 1
  simp [planePt]

theorem planePt_le (c : Point) (a b a' b' : ℝ) {dim : ℕ} (hd : 2 ≤ dim) : MinkLe dim (planePt c a b) (planePt c a' b') ↔ |b' - b| ≤ a' - a := by
  unfold MinkLe
  rw [planePt_sum (planePt c a b) _ (fun i hi => by simp [planePt, show i ≠ 0 by omega, show i ≠ 1 by omega]) hd, Real.sqrt_sq_eq_abs]
  simp [planePt]

theorem minkLe_time {dim : ℕ} {x y : Point} (h : MinkLe dim x y) : x 0 ≤ y 0 := by
  have := (Real.sqrt_nonneg _).trans h
  linarith

theorem dist1_tri (dim : ℕ) (c x z : Point) (t : ℝ) (ht : 0 ≤ t) (h : ∑ i ∈ Finset.Ico 1 dim, (z i - x i) ^ 2 ≤ t ^ 2) : distFrom 1 dim c z ≤ distFrom 1 dim c x + t := by
  have hn : 0 ≤ distFrom 1 dim c x := Real.sqrt_nonneg _
  refine Real.sqrt_le_iff.2 ⟨by linarith, ?_⟩
  refine sumSq_tri (Finset.Ico 1 dim) (fun i => x i - c i) (fun i => z i - x i) (fun i => z i - c i) _ _ hn ht ?_ h fun i _ => ?_
  · unfold distFrom
    rw [Real.sq_sqrt (Finset.sum_nonneg fun i _ => sq_nonneg _)]
  · have : z i - c i = (x i - c i) + (z i - x i) := by ring
    rw [this]; exact abs_add_le _ _

theorem dist1_le (dim : ℕ) (c x z : Point) (h : MinkLe dim x z) : distFrom 1 dim c z ≤ distFrom 1 dim c x + (z 0 - x 0) :=
  dist1_tri dim c x z _ (by linarith [minkLe_time h]) ((minkLe_iff _ _ _).1 h).2

theorem dist1_ge (dim : ℕ) (c z y : Point) (h : MinkLe dim z y) : distFrom 1 dim c z ≤ distFrom 1 dim c y + (y 0 - z 0) := by
  refine dist1_tri dim c y z _ (by linarith [minkLe_time h]) ?_
  have h2 := ((minkLe_iff _ _ _).1 h).2
  unfold spaceSq at h2
  have : ∑ i ∈ Finset.Ico 1 dim, (z i - y i) ^ 2 = ∑ i ∈ Finset.Ico 1 dim, (y i - z i) ^ 2 := Finset.sum_congr rfl fun i _ => by ring
  rw [this]; exact h2

theorem bicone_convex (dim : ℕ) (c : Point) (r : ℝ) : CausallyConvex (MinkLe dim) (biconeRegion dim c r 0) := by
  rintro x ⟨-, hx⟩ y ⟨-, hy⟩ z h1 h2
  refine ⟨by rw [zero_mul]; exact add_nonneg (abs_nonneg _) (Real.sqrt_nonneg _), ?_⟩
  have a1 := dist1_le dim c x z h1
  have a2 := dist1_ge dim c z y h2
  have t1 := minkLe_time h1
  have t2 := minkLe_time h2
  rcases le_total (c 0) (z 0) with h | h
  · rw [abs_of_nonneg (by linarith)]
    have := le_abs_self (y 0 - c 0)
    linarith
  · rw [abs_of_nonpos (by linarith)]
    have := neg_abs_le (x 0 - c 0)
    linarith

/-! ## Minkowski spacetime -/

theorem says_minkowski {M : FlatSpacetime} (hnp : M.isPeriodic = false) (hd : 1 ≤ M.dim) (x y : Point) : SpacetimeObj.Says (.flat M) x y ↔ MinkLe M.dim x y :=
  C43_minkowski M hnp x y hd

theorem cuboid_not_convex (dim : ℕ) (c : Point) (e : ℕ → ℝ) (h2 : 2 ≤ dim) (he : ∀ i < dim, 0 < e i) : ¬ CausallyConvex (MinkLe dim) (cuboidRegion dim c e) := by
  intro hcv
  have e0 := he 0 (by omega)
  have e1 := he 1 (by omega)
  have hin : ∀ a b, |a| ≤ e 0 / 2 → |b| ≤ e 1 / 2 → planePt c a b ∈ cuboidRegion dim c e := by
    intro a b ha hb i hi
    unfold planePt
    split
    · next h => subst h; simpa using ha
    split
    · next h => subst h; simpa using hb
    · simpa using (by linarith [he i hi] : 0 ≤ e i / 2)
  have := hcv (planePt c (-(e 0 / 2)) (e 1 / 2)) (hin _ _ (by rw [abs_neg, abs_of_pos (by linarith)]) (by rw [abs_of_pos (by linarith)]))
    (planePt c (e 0 / 2) (e 1 / 2)) (hin _ _ (by rw [abs_of_pos (by linarith)]) (by rw [abs_of_pos (by linarith)]))
    (planePt c 0 (e 1 / 2 + e 0 / 2))
    ((planePt_le _ _ _ _ _ h2).2 (by rw [abs_of_nonneg (by linarith)]; linarith))
    ((planePt_le _ _ _ _ _ h2).2 (by rw [abs_of_nonpos (by linarith)]; linarith)) 1 (by omega)
  simp [planePt] at this
  have := (abs_le.1 this).2
  linarith

/-- **C113, Minkowski spacetime.** In two or more dimensions, the only shapes of the library that contain with any two points everything between them are the
bicones that are not hollow: balls, cylinders, cubes and cuboids of any size are not causally convex. -/
theorem C113_minkowski (M : FlatSpacetime) (hnp : M.isPeriodic = false) (S : CoordinateShape) (hS : S.WellFormed) (hd : S.dim = M.dim) (h2 : 2 ≤ M.dim) :
    CausallyConvex (SpacetimeObj.Says (.flat M)) S.region ↔ S.name = "bicone" ∧ S.hollow = some 0 := by
  have hc : CausallyConvex (SpacetimeObj.Says (.flat M)) S.region ↔ CausallyConvex (MinkLe S.dim) S.region := by
    unfold CausallyConvex
    simp only [says_minkowski hnp (by omega : 1 ≤ M.dim), hd]
  rw [hc]
  rw [← hd] at h2
  obtain ⟨h1, hl, hS⟩ := hS
  generalize hdd : S.dim = dim at *
  rcases hS with ⟨r, h, hr, hh0, hh1, hS⟩ | ⟨r, h, hr, hh0, hh1, hS⟩ | ⟨r, h, T, hr, hh0, hh1, hT, hS⟩ | ⟨a, ha, hS⟩ | ⟨as, has, hap, hS⟩
  · have hR : S.region = ballRegion dim S.centerPoint r h := by rw [hS]; rfl
    have hn : S.name ≠ "bicone" := by rw [hS]; simp
    rw [hR]
    refine iff_of_false (fun hcv => ?_) (fun h => hn h.1)
    have h35 : Real.sqrt ((-(3 / 5 * r)) ^ 2 + (4 / 5 * r) ^ 2) = r := by
      rw [show (-(3 / 5 * r)) ^ 2 + (4 / 5 * r) ^ 2 = r ^ 2 by ring, Real.sqrt_sq hr.le]
    have h35' : Real.sqrt ((3 / 5 * r) ^ 2 + (4 / 5 * r) ^ 2) = r := by
      rw [show (3 / 5 * r) ^ 2 + (4 / 5 * r) ^ 2 = r ^ 2 by ring, Real.sqrt_sq hr.le]
    have := hcv (planePt S.centerPoint (-(3 / 5 * r)) (4 / 5 * r))
      (by simp only [ballRegion, Set.mem_setOf_eq]; rw [planePt_dist0 _ _ _ h2, h35]; constructor <;> nlinarith)
      (planePt S.centerPoint (3 / 5 * r) (4 / 5 * r))
      (by simp only [ballRegion, Set.mem_setOf_eq]; rw [planePt_dist0 _ _ _ h2, h35']; constructor <;> nlinarith)
      (planePt S.centerPoint 0 (7 / 5 * r))
      ((planePt_le _ _ _ _ _ h2).2 (by rw [abs_of_nonneg (by linarith)]; linarith))
      ((planePt_le _ _ _ _ _ h2).2 (by rw [abs_of_nonpos (by linarith)]; linarith))
    simp only [ballRegion, Set.mem_setOf_eq] at this
    rw [planePt_dist0 _ _ _ h2, show (0 : ℝ) ^ 2 + (7 / 5 * r) ^ 2 = (7 / 5 * r) ^ 2 by ring, Real.sqrt_sq (by linarith)] at this
    linarith [this.2]
  · have hR : S.region = biconeRegion dim S.centerPoint r h := by rw [hS]; rfl
    have hn : S.name = "bicone" ∧ S.hollow = some h := by rw [hS]; exact ⟨rfl, rfl⟩
    rw [hR]
    constructor
    · intro hcv
      refine ⟨hn.1, hn.2.trans ?_⟩
      by_contra hne
      have hpos : 0 < h := lt_of_le_of_ne hh0 (fun e => hne (by rw [e]))
      have := hcv (planePt S.centerPoint (-r) 0)
        (by simp only [biconeRegion, Set.mem_setOf_eq]; rw [planePt_dist1 _ _ _ h2]; simp [planePt, abs_of_pos hr]; nlinarith)
        (planePt S.centerPoint r 0)
        (by simp only [biconeRegion, Set.mem_setOf_eq]; rw [planePt_dist1 _ _ _ h2]; simp [planePt, abs_of_pos hr]; nlinarith)
        (planePt S.centerPoint 0 0)
        ((planePt_le _ _ _ _ _ h2).2 (by simp; linarith))
        ((planePt_le _ _ _ _ _ h2).2 (by simp; linarith))
      simp only [biconeRegion, Set.mem_setOf_eq] at this
      rw [planePt_dist1 _ _ _ h2] at this
      have t := this.1
      simp [planePt] at t
      nlinarith [mul_pos hpos hr]
    · rintro ⟨-, h0⟩
      rw [hn.2] at h0
      rw [Option.some.inj h0]
      exact bicone_convex _ _ _
  · have hR : S.region = cylinderRegion dim S.centerPoint r T h := by rw [hS]; rfl
    have hn : S.name ≠ "bicone" := by rw [hS]; simp
    rw [hR]
    refine iff_of_false (fun hcv => ?_) (fun h => hn h.1)
    have := hcv (planePt S.centerPoint (-(T / 2)) r)
      (by simp only [cylinderRegion, Set.mem_setOf_eq]; rw [planePt_dist1 _ _ _ h2]; simp [planePt, abs_of_pos hr]; exact ⟨by rw [abs_of_pos (by linarith)], mul_le_of_le_one_left hr.le hh1.le⟩)
      (planePt S.centerPoint (T / 2) r)
      (by simp only [cylinderRegion, Set.mem_setOf_eq]; rw [planePt_dist1 _ _ _ h2]; simp [planePt, abs_of_pos hr]; exact ⟨by rw [abs_of_pos (by linarith)], mul_le_of_le_one_left hr.le hh1.le⟩)
      (planePt S.centerPoint 0 (r + T / 2))
      ((planePt_le _ _ _ _ _ h2).2 (by rw [abs_of_nonneg (by linarith)]; linarith))
      ((planePt_le _ _ _ _ _ h2).2 (by rw [abs_of_nonpos (by linarith)]; linarith))
    simp only [cylinderRegion, Set.mem_setOf_eq] at this
    rw [planePt_dist1 _ _ _ h2, abs_of_pos (by linarith : 0 < r + T / 2)] at this
    linarith [this.2.2]
  all_goals
    have hn : S.name ≠ "bicone" := by rw [hS]; simp
    refine iff_of_false (fun hcv => ?_) (fun h => hn h.1)
  · have hR : S.region = cuboidRegion dim S.centerPoint (fun _ => a) := by rw [hS]; rfl
    rw [hR] at hcv
    refine cuboid_not_convex dim S.centerPoint (fun _ => a) h2 (fun _ _ => ha) hcv
  · have hR : S.region = cuboidRegion dim S.centerPoint (fun i => as.getD i 0) := by rw [hS]; rfl
    rw [hR] at hcv
    refine cuboid_not_convex dim S.centerPoint _ h2 (fun i hi => ?_) hcv
    rw [List.getD_eq_getElem?_getD, List.getElem?_eq_getElem (by omega)]
    exact hap _ (List.getElem_mem _)

/-- **C113, one dimension.** Only the hollow balls and bicones are not causally convex. -/
theorem C113_line (M : FlatSpacetime) (h1 : M.dim = 1) (S : CoordinateShape) (hS : S.WellFormed) (hd : S.dim = M.dim) :
    CausallyConvex (SpacetimeObj.Says (.flat M)) S.region ↔ S.name ∈ ["cylinder", "cube", "cuboid"] ∨ S.hollow = some 0 := by
  have hsay : ∀ x y, SpacetimeObj.Says (.flat M) x y ↔ x 0 ≤ y 0 := by
    intro x y
    show (M.causality 0 x y).1 = true ↔ _
    unfold FlatSpacetime.causality
    rw [if_pos h1]
    simp [causalityBase, test]
  have hc : CausallyConvex (SpacetimeObj.Says (.flat M)) S.region ↔ CausallyConvex (fun x y => x 0 ≤ y 0) S.region := by
    unfold CausallyConvex
    simp only [hsay]
  rw [hc]
  have hdim : S.dim = 1 := by omega
  obtain ⟨-, hl, hS⟩ := hS
  rw [hdim] at hS
  have d1 : ∀ c x : Point, distFrom 1 1 c x = 0 := fun c x => by simp [distFrom]
  have d0 : ∀ c x : Point, distFrom 0 1 c x = |x 0 - c 0| := fun c x => by simp [distFrom, Real.sqrt_sq_eq_abs]
  have seg : ∀ (c a x y z : ℝ), |x - c| ≤ a → |y - c| ≤ a → x ≤ z → z ≤ y → |z - c| ≤ a := by
    intro c a x y z hx hy h1 h2
    rw [abs_le] at *
    constructor <;> linarith [hx.1, hy.2]
  have hol : ∀ (c : Point) (r h : ℝ), 0 < r → 0 ≤ h → h < 1 → (CausallyConvex (fun x y => x 0 ≤ y 0) {x : Point | h * r ≤ |x 0 - c 0| ∧ |x 0 - c 0| ≤ r} ↔ h = 0) := by
    intro c r h hr h0 h1
    constructor
    · intro hcv
      by_contra hne
      have hpos : 0 < h := lt_of_le_of_ne h0 (Ne.symm hne)
      have := hcv (fun _ => c 0 - r) ⟨by simp [abs_of_pos hr]; nlinarith, by simp [abs_of_pos hr]⟩ (fun _ => c 0 + r) ⟨by simp [abs_of_pos hr]; nlinarith, by simp [abs_of_pos hr]⟩
        c (by simp; linarith) (by simp; linarith)
      have t := this.1
      simp at t
      nlinarith [mul_pos hpos hr]
    · rintro rfl x ⟨-, hx⟩ y ⟨-, hy⟩ z h1 h2
      exact ⟨by simp, seg _ _ _ _ _ hx hy h1 h2⟩
  rcases hS with ⟨r, h, hr, hh0, hh1, hS⟩ | ⟨r, h, hr, hh0, hh1, hS⟩ | ⟨r, h, T, hr, hh0, hh1, hT, hS⟩ | ⟨a, ha, hS⟩ | ⟨as, has, hap, hS⟩
  · have hR : S.region = {x : Point | h * r ≤ |x 0 - S.centerPoint 0| ∧ |x 0 - S.centerPoint 0| ≤ r} := by
      have : S.region = ballRegion 1 S.centerPoint r h := by rw [hS]; rfl
      rw [this]; unfold ballRegion; simp only [d0]
    have hn : S.name = "ball" ∧ S.hollow = some h := by rw [hS]; exact ⟨rfl, rfl⟩
    rw [hR, hol _ _ _ hr hh0 hh1, hn.1, hn.2]
    simp
  · have hR : S.region = {x : Point | h * r ≤ |x 0 - S.centerPoint 0| ∧ |x 0 - S.centerPoint 0| ≤ r} := by
      have : S.region = biconeRegion 1 S.centerPoint r h := by rw [hS]; rfl
      rw [this]; unfold biconeRegion; simp only [d1, add_zero]
    have hn : S.name = "bicone" ∧ S.hollow = some h := by rw [hS]; exact ⟨rfl, rfl⟩
    rw [hR, hol _ _ _ hr hh0 hh1, hn.1, hn.2]
    simp
  · have hR : S.region = cylinderRegion 1 S.centerPoint r T h := by rw [hS]; rfl
    have hn : S.name = "cylinder" := by rw [hS]
    rw [hR]
    refine iff_of_true ?_ (Or.inl (by rw [hn]; simp))
    rintro x ⟨hx, hx2⟩ y ⟨hy, -⟩ z h1 h2
    rw [d1] at hx2
    exact ⟨seg _ _ _ _ _ hx hy h1 h2, by rw [d1]; exact hx2⟩
  all_goals
    have hn : S.name ∈ ["cylinder", "cube", "cuboid"] := by rw [hS]; simp
    refine iff_of_true ?_ (Or.inl hn)
  · have hR : S.region = cuboidRegion 1 S.centerPoint (fun _ => a) := by rw [hS]; rfl
    rw [hR]
    intro x hx y hy z h1 h2 i hi
    obtain rfl : i = 0 := by omega
    exact seg _ _ _ _ _ (hx 0 hi) (hy 0 hi) h1 h2
  · have hR : S.region = cuboidRegion 1 S.centerPoint (fun i => as.getD i 0) := by rw [hS]; rfl
    rw [hR]
    intro x hx y hy z h1 h2 i hi
    obtain rfl : i = 0 := by omega
    exact seg _ _ _ _ _ (hx 0 hi) (hy 0 hi) h1 h2

/-- **C113, tolerance.** With the tolerance of the code, points between two points of a bicone are in the bicone whose radius is larger by the root of the tolerance. -/
theorem C113_tolerance (eps : ℝ) (he : 0 ≤ eps) (he1 : eps ≤ 1) (M : FlatSpacetime) (hnp : M.isPeriodic = false) (hd : 1 ≤ M.dim) (c : Point) (r : ℝ) (x y z : Point)
    (hx : x ∈ biconeRegion M.dim c r 0) (hy : y ∈ biconeRegion M.dim c r 0) (h1 : (M.causality eps x z).1 = true) (h2 : (M.causality eps z y).1 = true) :
    z ∈ biconeRegion M.dim c (r + Real.sqrt eps) 0 := by
  rw [flat_tolerance eps he M _ _ hd] at h1 h2
  have hp : ∀ i, ¬ M.periods i > 0 := fun i => by unfold FlatSpacetime.periods; simp [hnp]
  have hdist : ∀ a b, M.distSq a b = ∑ i ∈ Finset.Ico 1 M.dim, (b i - a i) ^ 2 := by
    intro a b
    unfold FlatSpacetime.distSq
    refine Finset.sum_congr rfl fun i _ => ?_
    unfold periodicDelta
    rw [if_neg (hp _), sq_abs]
  rw [hdist] at h1 h2
  have hs := Real.sqrt_nonneg eps
  have hs2 := Real.sq_sqrt he
  have key : ∀ (Q t : ℝ), 0 ≤ Q → (0 ≤ t ∧ if M.dim = 2 then Real.sqrt Q ≤ t + eps else Q ≤ t ^ 2 + eps) → Q ≤ (t + Real.sqrt eps) ^ 2 := by
    rintro Q t hQ ⟨ht, h⟩
    split at h
    · have h3 : eps ≤ Real.sqrt eps := Real.le_sqrt_of_sq_le (by nlinarith)
      have h4 := Real.sq_sqrt hQ
      have h5 := Real.sqrt_nonneg Q
      have h6 : Real.sqrt Q ≤ t + Real.sqrt eps := by linarith
      nlinarith
    · nlinarith
  have a1 := dist1_tri M.dim c x z (z 0 - x 0 + Real.sqrt eps) (by linarith [h1.1]) (key _ _ (Finset.sum_nonneg fun i _ => sq_nonneg _) h1)
  have a2 := dist1_tri M.dim c y z (y 0 - z 0 + Real.sqrt eps) (by linarith [h2.1]) (by
    have : ∑ i ∈ Finset.Ico 1 M.dim, (z i - y i) ^ 2 = ∑ i ∈ Finset.Ico 1 M.dim, (y i - z i) ^ 2 := Finset.sum_congr rfl fun i _ => by ring
    rw [this]; exact key _ _ (Finset.sum_nonneg fun i _ => sq_nonneg _) h2)
  obtain ⟨-, hx⟩ := hx
  obtain ⟨-, hy⟩ := hy
  refine ⟨by rw [zero_mul]; exact add_nonneg (abs_nonneg _) (Real.sqrt_nonneg _), ?_⟩
  rcases le_total (c 0) (z 0) with h | h
  · rw [abs_of_nonneg (by linarith)]
    have := le_abs_self (y 0 - c 0)
    linarith
  · rw [abs_of_nonpos (by linarith)]
    have := neg_abs_le (x 0 - c 0)
    linarith

/-! ## The default shapes -/

/-- the regions of the default shapes -/
theorem default_region (M : SpacetimeObj) (hd : 1 ≤ M.dim) : ∃ S, M.defaultShape = .ok S ∧ S.WellFormed ∧ S.dim = M.dim ∧
    S.region = (match M with
      | .flat N => if N.isPeriodic then cuboidRegion N.dim (fun _ => 0) (fun _ => 1) else biconeRegion N.dim (fun _ => 0) 1 0
      | M => cylinderRegion M.dim (fun _ => 0) 1 2 0) := by
  have hz : ∀ n, (fun i => (List.replicate n (0 : ℝ)).getD i 0) = fun _ => (0 : ℝ) := by
    intro n; funext i
    rw [List.getD_eq_getElem?_getD, List.getElem?_replicate]
    split <;> rfl
  have hv : ∀ s, s ∈ ["ball", "bicone", "diamond", "cylinder", "cube", "cuboid"] → ValidShape (M.dim : ℤ) s {} := by
    intro s hs
    unfold ValidShape
    simp only [reduceCtorEq, false_imp_iff, implies_true, and_true]
    exact ⟨by exact_mod_cast hd, hs⟩
  have hcyl : ∃ S, CoordinateShape.init M.dim "cylinder" {} = .ok S ∧ S.WellFormed ∧ S.dim = M.dim ∧ S.region = cylinderRegion M.dim (fun _ => 0) 1 2 0 := by
    obtain ⟨S, a1, a2, a3, a4, a5, a6, a7, -, -⟩ := (C52_init (M.dim : ℤ) "cylinder" {}).1 (hv _ (by simp))
    have a3' : S.dim = M.dim := by exact_mod_cast a3
    obtain ⟨b1, b2⟩ := a6 (by simp)
    have b3 := a7 rfl
    refine ⟨S, a1, a2, a3', ?_⟩
    have hcp : S.centerPoint = fun _ => 0 := by unfold centerPoint; rw [a5]; exact hz _
    unfold CoordinateShape.region
    rw [a4, hcp, b1, b2, b3, a3']
    simp
  cases M with
  | flat N =>
    by_cases hp : N.isPeriodic = true
    · obtain ⟨S, a1, a2, a3, a4, a5, -, -, a8, -⟩ := (C52_init (N.dim : ℤ) "cube" {}).1 (hv _ (by simp))
      have a3' : S.dim = N.dim := by exact_mod_cast a3
      have b3 := a8 rfl
      refine ⟨S, by simpa [SpacetimeObj.defaultShape, hp] using a1, a2, a3', ?_⟩
      have hcp : S.centerPoint = fun _ => 0 := by unfold centerPoint; rw [a5]; exact hz _
      unfold CoordinateShape.region
      rw [a4, hcp, b3, a3']
      simp [hp]
    · obtain ⟨S, a1, a2, a3, a4, a5, a6, -, -, -⟩ := (C52_init (N.dim : ℤ) "diamond" {}).1 (hv _ (by simp))
      have a3' : S.dim = N.dim := by exact_mod_cast a3
      obtain ⟨b1, b2⟩ := a6 (by simp)
      refine ⟨S, by simpa [SpacetimeObj.defaultShape, hp] using a1, a2, a3', ?_⟩
      have hcp : S.centerPoint = fun _ => 0 := by unfold centerPoint; rw [a5]; exact hz _
      unfold CoordinateShape.region
      rw [a4, hcp, b1, b2, a3']
      simp [hp]
  | base => exact hcyl
  | deSitter d a => exact hcyl
  | antiDeSitter d a => exact hcyl
  | blackHole r m => exact hcyl

/-- **C113, default shape of Minkowski spacetime** (any dimension): it contains with any two points everything between them. -/
theorem C113_default_minkowski (M : FlatSpacetime) (hnp : M.isPeriodic = false) (hd : 1 ≤ M.dim) :
    ∃ S, SpacetimeObj.defaultShape (.flat M) = .ok S ∧ CausallyConvex (SpacetimeObj.Says (.flat M)) S.region := by
  obtain ⟨S, h1, -, -, h4⟩ := default_region (.flat M) hd
  refine ⟨S, h1, ?_⟩
  rw [h4]
  simp only [hnp, Bool.false_eq_true, if_false]
  intro x hx y hy z h1 h2
  exact bicone_convex _ _ _ x hx y hy z ((says_minkowski hnp hd _ _).1 h1) ((says_minkowski hnp hd _ _).1 h2)

/-- the point at time `a` and position `b` on axis `i` -/
noncomputable def axisPt (i : ℕ) (a b : ℝ) : Point := fun j => if j = 0 then a else if j = i then b else 0

theorem axisPt_le {i dim : ℕ} (h1 : 1 ≤ i) (h2 : i < dim) (a b a' b' : ℝ) : MinkLe dim (axisPt i a b) (axisPt i a' b') ↔ |b' - b| ≤ a' - a := by
  unfold MinkLe
  rw [Finset.sum_eq_single i]
  · simp [axisPt, show i ≠ 0 by omega, Real.sqrt_sq_eq_abs]
  · intro j hj hne
    rw [Finset.mem_Ico] at hj
    simp [axisPt, hne, show j ≠ 0 by omega]
  · intro h; exact absurd (Finset.mem_Ico.2 ⟨h1, h2⟩) h

theorem axisPt_cube {i dim : ℕ} (h1 : 1 ≤ i) (a b : ℝ) (ha : |a| ≤ 1 / 2) (hb : |b| ≤ 1 / 2) : axisPt i a b ∈ cuboidRegion dim (fun _ => 0) (fun _ => 1) := by
  intro j _
  unfold axisPt
  split
  · simpa using ha
  split
  · simpa using hb
  · simp

/-- **C113, default shape of periodic flat spacetimes.** It is the unit cube, whatever the periods are.  Up to shifts by the periods, it contains with two points everything between
them exactly if every spatial direction has a period and no period is longer than 1; its points differ by at most one period (which C43 assumes) exactly if no period is
shorter than 1.  So it fits only if all periods are 1. -/
theorem C113_default_periodic (M : FlatSpacetime) (hp : M.isPeriodic = true) (hd : 1 ≤ M.dim) :
    ∃ S, SpacetimeObj.defaultShape (.flat M) = .ok S ∧ S.region = {x | ∀ i < M.dim, |x i| ≤ 1 / 2} ∧
      (CausallyConvexMod M.periods (TorusLe M.dim M.periods) S.region ↔ ∀ i, 1 ≤ i → i < M.dim → 0 < M.periods (i - 1) ∧ M.periods (i - 1) ≤ 1) ∧
      ((∀ x ∈ S.region, ∀ y ∈ S.region, InDomain M.dim M.periods x y) ↔ ∀ i, 1 ≤ i → i < M.dim → 0 < M.periods (i - 1) → 1 ≤ M.periods (i - 1)) := by
  obtain ⟨S, h1, -, -, h4⟩ := default_region (.flat M) hd
  simp only [hp, if_true] at h4
  refine ⟨S, h1, by rw [h4]; unfold cuboidRegion; simp, ?_, ?_⟩
  · rw [h4]
    constructor
    · intro hcv i hi1 hi2
      by_contra hne
      have : ∃ δ, 0 < δ ∧ δ ≤ 1 / 2 ∧ ∀ k : ℤ, ¬ |(if M.periods (i - 1) > 0 then 1 / 2 + δ + k * M.periods (i - 1) else 1 / 2 + δ)| ≤ 1 / 2 := by
        by_cases hpos : M.periods (i - 1) > 0
        · have hgt : 1 < M.periods (i - 1) := by
            by_contra hle
            exact hne ⟨hpos, not_lt.1 hle⟩
          refine ⟨min (1 / 2) ((M.periods (i - 1) - 1) / 2), lt_min (by norm_num) (by linarith), min_le_left _ _, fun k hk => ?_⟩
          rw [if_pos hpos, abs_le] at hk
          have hm0 : 0 < min (1 / 2) ((M.periods (i - 1) - 1) / 2) := lt_min (by norm_num) (by linarith)
          have hm := min_le_right (1 / 2) ((M.periods (i - 1) - 1) / 2)
          generalize min (1 / 2) ((M.periods (i - 1) - 1) / 2) = δ at *
          rcases lt_or_ge k 0 with hk0 | hk0
          · have : (k : ℝ) ≤ -1 := by exact_mod_cast (by omega : k ≤ -1)
            nlinarith [hk.1]
          · have : (0 : ℝ) ≤ k := by exact_mod_cast hk0
            nlinarith [hk.2]
        · refine ⟨1 / 2, by norm_num, le_refl _, fun k hk => ?_⟩
          rw [if_neg hpos] at hk
          norm_num at hk
      obtain ⟨δ, hδ, hδ2, hk⟩ := this
      obtain ⟨k, h⟩ := hcv (axisPt i (-(1 / 2)) (1 / 2)) (axisPt_cube hi1 _ _ (by norm_num [abs_of_pos]) (by norm_num [abs_of_pos]))
        (axisPt i (1 / 2) (1 / 2)) (axisPt_cube hi1 _ _ (by norm_num [abs_of_pos]) (by norm_num [abs_of_pos])) (axisPt i 0 (1 / 2 + δ))
        ⟨fun _ => 0, by rw [image_zero, axisPt_le hi1 hi2, abs_of_nonneg (by linarith)]; linarith⟩
        ⟨fun _ => 0, by rw [image_zero, axisPt_le hi1 hi2, abs_of_nonpos (by linarith)]; linarith⟩
      have hi := h i hi2
      apply hk (k i)
      unfold image axisPt at hi
      simp only [hi1, true_and, show i ≠ 0 by omega, if_false, if_true, sub_zero] at hi
      exact hi
    · intro hper x hx y hy z hxz hzy
      refine ⟨fun i => -round (z i / M.periods (i - 1)), fun i hi => ?_⟩
      rcases Nat.eq_zero_or_pos i with rfl | hi1
      · have ex := hx 0 hi
        have ey := hy 0 hi
        obtain ⟨k1, hk1⟩ := hxz
        obtain ⟨k2, hk2⟩ := hzy
        have t1 := minkLe_time hk1
        have t2 := minkLe_time hk2
        simp only [image, show ¬ (1 ≤ 0) by omega, false_and, if_false] at t1 t2
        simp only [image, show ¬ (1 ≤ 0) by omega, false_and, if_false]
        rw [abs_le] at *
        constructor <;> linarith [ex.1, ey.2]
      · obtain ⟨p0, p1⟩ := hper i hi1 hi
        have hr := abs_sub_round (z i / M.periods (i - 1))
        simp only [image]
        rw [if_pos ⟨hi1, p0⟩, sub_zero]
        have e : z i + ((-round (z i / M.periods (i - 1)) : ℤ) : ℝ) * M.periods (i - 1) = (z i / M.periods (i - 1) - round (z i / M.periods (i - 1))) * M.periods (i - 1) := by
          push_cast
          field_simp
          ring
        rw [e, abs_mul, abs_of_pos p0]
        nlinarith [abs_nonneg (z i / M.periods (i - 1) - round (z i / M.periods (i - 1)))]
  · rw [h4]
    constructor
    · intro h i hi1 hi2 hpos
      have := h (axisPt i 0 (-(1 / 2))) (axisPt_cube hi1 _ _ (by norm_num [abs_of_pos]) (by norm_num [abs_of_pos])) (axisPt i 0 (1 / 2))
        (axisPt_cube hi1 _ _ (by norm_num [abs_of_pos]) (by norm_num [abs_of_pos])) i hi1 hi2 hpos
      simp only [axisPt, show i ≠ 0 by omega, if_false, if_true] at this
      norm_num at this
      exact this
    · intro h x hx y hy i hi1 hi2 hpos
      have ex := abs_le.1 (hx i hi2)
      have ey := abs_le.1 (hy i hi2)
      refine le_trans ?_ (h i hi1 hi2 hpos)
      rw [abs_le]
      constructor <;> linarith [ex.1, ex.2, ey.1, ey.2]

/-! ## De Sitter spacetime -/

theorem says_deSitter {d : ℕ} (hd : 2 ≤ d) (a : ℝ) (x y : Point) : SpacetimeObj.Says (.deSitter d a) x y ↔ SpacetimeObj.Le (.deSitter d a) x y :=
  C44_deSitter d hd a x y

theorem planePt_norm (c : Point) (hc : ∀ i, 1 ≤ i → c i = 0) (a b : ℝ) {dim : ℕ} (hd : 2 ≤ dim) : ∑ i ∈ Finset.Ico 1 dim, (planePt c a b i) ^ 2 = b ^ 2 := by
  rw [Finset.sum_eq_single 1]
  · simp [planePt, hc 1 (le_refl 1)]
  · intro i hi h1
    rw [Finset.mem_Ico] at hi
    simp [planePt, show i ≠ 0 by omega, h1, hc i hi.1]
  · intro h1; exact absurd (Finset.mem_Ico.2 ⟨le_refl 1, hd⟩) h1

/-- the product of the ambient vectors decides the order -/
theorem dS_plane_le {d : ℕ} (hd : 2 ≤ d) {α : ℝ} (hα : 0 < α) (c : Point) (hc : ∀ i, 1 ≤ i → c i = 0) (t b t' b' : ℝ) (hb : b ^ 2 < α ^ 2) (hb' : b' ^ 2 < α ^ 2) (ht : t < t')
    (h : α ^ 2 ≤ b * b' + Real.sqrt (α ^ 2 - b ^ 2) * Real.sqrt (α ^ 2 - b' ^ 2) * Real.cosh ((t' - t) / α)) :
    SpacetimeObj.Says (.deSitter d α) (planePt c t b) (planePt c t' b') := by
  set X := planePt c t b with hX
  set Y := planePt c t' b' with hY
  have nX : ∑ i ∈ Finset.Ico 1 d, X i ^ 2 = b ^ 2 := planePt_norm c hc t b hd
  have nY : ∑ i ∈ Finset.Ico 1 d, Y i ^ 2 = b' ^ 2 := planePt_norm c hc t' b' hd
  have iX : InHorizon d α X := by unfold InHorizon; rw [nX]; exact hb
  have iY : InHorizon d α Y := by unfold InHorizon; rw [nY]; exact hb'
  have sXY : spaceSq d X Y = (b' - b) ^ 2 := by
    unfold spaceSq
    rw [planePt_sum X Y (fun i hi => by simp [hX, hY, planePt, show i ≠ 0 by omega, show i ≠ 1 by omega]) hd]
    simp [hX, hY, planePt]
  have e0 : ∀ Z, dSEmbed d α Z 0 = Real.sqrt (α ^ 2 - ∑ i ∈ Finset.Ico 1 d, Z i ^ 2) * Real.sinh (Z 0 / α) := fun Z => by simp [dSEmbed]
  have ed : ∀ Z, dSEmbed d α Z d = Real.sqrt (α ^ 2 - ∑ i ∈ Finset.Ico 1 d, Z i ^ 2) * Real.cosh (Z 0 / α) := fun Z => by simp [dSEmbed, show d ≠ 0 by omega]
  have hX0 : X 0 = c 0 + t := by simp [hX, planePt]
  have hY0 : Y 0 = c 0 + t' := by simp [hY, planePt]
  have hsp : spaceSq (d + 1) (dSEmbed d α X) (dSEmbed d α Y) ≤ (dSEmbed d α Y 0 - dSEmbed d α X 0) ^ 2 := by
    rw [dSEmbed_spaceSq (by omega), sXY, e0, e0, ed, ed, nX, nY, hX0, hY0]
    have A2 := Real.sq_sqrt (by linarith : 0 ≤ α ^ 2 - b ^ 2)
    have B2 := Real.sq_sqrt (by linarith : 0 ≤ α ^ 2 - b' ^ 2)
    have hsub : (t' - t) / α = (c 0 + t') / α - (c 0 + t) / α := by ring
    rw [hsub, Real.cosh_sub] at h
    have cu := Real.cosh_sq ((c 0 + t) / α)
    have cv := Real.cosh_sq ((c 0 + t') / α)
    generalize Real.sqrt (α ^ 2 - b ^ 2) = A at *
    generalize Real.sqrt (α ^ 2 - b' ^ 2) = B at *
    generalize Real.cosh ((c 0 + t) / α) = C1 at *
    generalize Real.cosh ((c 0 + t') / α) = C2 at *
    generalize Real.sinh ((c 0 + t) / α) = S1 at *
    generalize Real.sinh ((c 0 + t') / α) = S2 at *
    have e1 : A ^ 2 * C1 ^ 2 = A ^ 2 * S1 ^ 2 + A ^ 2 := by rw [cu]; ring
    have e2 : B ^ 2 * C2 ^ 2 = B ^ 2 * S2 ^ 2 + B ^ 2 := by rw [cv]; ring
    nlinarith
  rw [says_deSitter hd]
  refine ⟨iX, iY, ?_⟩
  rw [minkLe_iff]
  refine ⟨?_, hsp⟩
  by_contra hneg
  push Not at hneg
  have hrev : SpacetimeObj.Le (.deSitter d α) Y X := by
    refine ⟨iY, iX, ?_⟩
    rw [minkLe_iff]
    refine ⟨by linarith, ?_⟩
    have e : spaceSq (d + 1) (dSEmbed d α Y) (dSEmbed d α X) = spaceSq (d + 1) (dSEmbed d α X) (dSEmbed d α Y) :=
      Finset.sum_congr rfl fun i _ => by ring
    rw [e]
    have e2 : (dSEmbed d α X 0 - dSEmbed d α Y 0) ^ 2 = (dSEmbed d α Y 0 - dSEmbed d α X 0) ^ 2 := by ring
    rw [e2]; exact hsp
  have := C44_deSitter_time d hd α hα Y X ((says_deSitter hd α Y X).2 hrev)
  rw [hX0, hY0] at this
  linarith

/-- **C113, de Sitter spacetime.** A cylinder around the observer at the origin (not hollow) contains with any two points everything between them exactly if it reaches the
horizon. -/
theorem C113_deSitter (d : ℕ) (hd : 2 ≤ d) (α : ℝ) (hα : 0 < α) (c : Point) (hc : ∀ i, 1 ≤ i → c i = 0) (R T : ℝ) (hR : 0 < R) (hT : 0 < T) :
    CausallyConvex (SpacetimeObj.Says (.deSitter d α)) (cylinderRegion d c R T 0) ↔ α ≤ R := by
  constructor
  · intro hcv
    by_contra hlt
    push Not at hlt
    have hR2 : R ^ 2 < α ^ 2 := by nlinarith
    have hcosh : 1 < Real.cosh (T / 2 / α) := by
      rw [Real.one_lt_cosh]
      have : 0 < T / 2 / α := by positivity
      exact this.ne'
    have hf : ContinuousAt (fun δ : ℝ => R * (R + δ) + Real.sqrt (α ^ 2 - R ^ 2) * Real.sqrt (α ^ 2 - (R + δ) ^ 2) * Real.cosh (T / 2 / α)) 0 := by fun_prop
    have hg : ContinuousAt (fun δ : ℝ => (R + δ) ^ 2) 0 := by fun_prop
    have hf0 : α ^ 2 < R * (R + 0) + Real.sqrt (α ^ 2 - R ^ 2) * Real.sqrt (α ^ 2 - (R + 0) ^ 2) * Real.cosh (T / 2 / α) := by
      rw [add_zero, Real.mul_self_sqrt (by linarith)]
      nlinarith
    have hg0 : (R + 0) ^ 2 < α ^ 2 := by rw [add_zero]; exact hR2
    have hev := (hf.eventually (lt_mem_nhds hf0)).and (hg.eventually (gt_mem_nhds hg0))
    obtain ⟨δ, ⟨h1, h2⟩, h3⟩ := ((hev.filter_mono nhdsWithin_le_nhds).and (self_mem_nhdsWithin : Set.Ioi (0 : ℝ) ∈ nhdsWithin 0 (Set.Ioi 0))).exists
    have h3' : 0 < δ := h3
    have hin : ∀ a, |a| ≤ T / 2 → planePt c a R ∈ cylinderRegion d c R T 0 := by
      intro a ha
      refine ⟨by simpa [planePt] using ha, ?_, ?_⟩
      · rw [zero_mul]; exact Real.sqrt_nonneg _
      · rw [planePt_dist1 _ _ _ hd, abs_of_pos hR]
    have := hcv (planePt c (-(T / 2)) R) (hin _ (by rw [abs_neg, abs_of_pos (by linarith)])) (planePt c (T / 2) R) (hin _ (by rw [abs_of_pos (by linarith)])) (planePt c 0 (R + δ))
      (dS_plane_le hd hα c hc _ _ _ _ hR2 h2 (by linarith) (by rw [show (0 - -(T / 2)) / α = T / 2 / α by ring]; exact h1.le))
      (dS_plane_le hd hα c hc _ _ _ _ h2 hR2 (by linarith) (by
        rw [show (T / 2 - 0) / α = T / 2 / α by ring, mul_comm (R + δ) R, mul_comm (Real.sqrt (α ^ 2 - (R + δ) ^ 2))]; exact h1.le))
    have h4 := this.2.2
    rw [planePt_dist1 _ _ _ hd, abs_of_pos (by linarith)] at h4
    linarith
  · rintro hle x ⟨hx, -⟩ y ⟨hy, -⟩ z hxz hzy
    have t1 := C44_deSitter_time d hd α hα x z hxz
    have t2 := C44_deSitter_time d hd α hα z y hzy
    have hz := ((says_deSitter hd α _ _).1 hxz).2.1
    refine ⟨?_, by rw [zero_mul]; exact Real.sqrt_nonneg _, ?_⟩
    · rw [abs_le] at *
      constructor <;> linarith [hx.1, hy.2]
    · refine Real.sqrt_le_iff.2 ⟨hR.le, ?_⟩
      have e : ∑ i ∈ Finset.Ico 1 d, (z i - c i) ^ 2 = ∑ i ∈ Finset.Ico 1 d, z i ^ 2 :=
        Finset.sum_congr rfl fun i hi => by rw [hc i (Finset.mem_Ico.1 hi).1, sub_zero]
      rw [e]
      unfold InHorizon at hz
      nlinarith

/-- **C113, default shape of de Sitter spacetime.** It is causally convex exactly for a de Sitter radius of at most 1 (as by default). -/
theorem C113_default_deSitter (d : ℕ) (hd : 2 ≤ d) (α : ℝ) (hα : 0 < α) :
    ∃ S, SpacetimeObj.defaultShape (.deSitter d α) = .ok S ∧ (CausallyConvex (SpacetimeObj.Says (.deSitter d α)) S.region ↔ α ≤ 1) := by
  obtain ⟨S, h1, -, -, h4⟩ := default_region (.deSitter d α) (show 1 ≤ d by omega)
  exact ⟨S, h1, by rw [h4]; exact C113_deSitter d hd α hα _ (fun _ _ => rfl) 1 2 one_pos two_pos⟩

/-! ## Anti-de Sitter spacetime, the base class -/

/-- **C113, refuted for anti-de Sitter spacetime.** No cylinder (and not the default shape) is causally convex: time is periodic, so that the same place at a much later time is
both after and before. -/
theorem C113_antiDeSitter_refuted (d : ℕ) (α : ℝ) (hα : 0 < α) (c : Point) (R T : ℝ) (hR : 0 < R) (hT : 0 < T) :
    ¬ CausallyConvex (SpacetimeObj.Says (.antiDeSitter d α)) (cylinderRegion d c R T 0) := by
  intro hcv
  obtain ⟨k, hk⟩ := exists_nat_gt (T / 2 / (2 * Real.pi * α))
  have hpa : 0 < 2 * Real.pi * α := by have := Real.pi_pos; positivity
  rw [div_lt_iff₀ hpa] at hk
  set z : Point := fun i => if i = 0 then c 0 + k * (2 * Real.pi * α) else c i with hz
  have hs : z 0 / α = c 0 / α + k * (2 * Real.pi) := by
    simp only [hz, if_true]
    field_simp
  have hi : ∀ i, 1 ≤ i → z i = c i := fun i hi => by simp [hz, show i ≠ 0 by omega]
  have hsum : ∑ i ∈ Finset.Ico 1 d, z i ^ 2 = ∑ i ∈ Finset.Ico 1 d, c i ^ 2 := Finset.sum_congr rfl fun i h => by rw [hi i (Finset.mem_Ico.1 h).1]
  have hsp : spaceSq d c z = 0 := Finset.sum_eq_zero fun i h => by rw [hi i (Finset.mem_Ico.1 h).1]; ring
  have hsp' : spaceSq d z c = 0 := Finset.sum_eq_zero fun i h => by rw [hi i (Finset.mem_Ico.1 h).1]; ring
  have hcin : c ∈ cylinderRegion d c R T 0 := by
    refine ⟨by simp; linarith, ?_, ?_⟩
    · rw [zero_mul]; exact Real.sqrt_nonneg _
    · simp [distFrom, hR.le]
  have := hcv c hcin c hcin z
    (by simp [SpacetimeObj.Says, SpacetimeObj.causality, causalityAdS, test, hs, hsum, hsp, Real.sin_add_nat_mul_two_pi, Real.cos_add_nat_mul_two_pi])
    (by simp [SpacetimeObj.Says, SpacetimeObj.causality, causalityAdS, test, hs, hsum, hsp', Real.sin_add_nat_mul_two_pi, Real.cos_add_nat_mul_two_pi])
  have h := this.1
  simp only [hz, if_true, add_sub_cancel_left] at h
  rw [abs_of_nonneg (by positivity)] at h
  linarith

/-- **C113, refuted for the default shapes of anti-de Sitter spacetime and of the base class.** -/
theorem C113_default_refuted :
    (∀ (d : ℕ) (α : ℝ), 1 ≤ d → 0 < α → ∃ S, SpacetimeObj.defaultShape (.antiDeSitter d α) = .ok S ∧ ¬ CausallyConvex (SpacetimeObj.Says (.antiDeSitter d α)) S.region) ∧
    (∃ S, SpacetimeObj.defaultShape .base = .ok S ∧ ¬ CausallyConvex (SpacetimeObj.Says .base) S.region) := by
  refine ⟨fun d α hd hα => ?_, ?_⟩
  · obtain ⟨S, h1, -, -, h4⟩ := default_region (.antiDeSitter d α) hd
    exact ⟨S, h1, by rw [h4]; exact C113_antiDeSitter_refuted d α hα _ 1 2 one_pos two_pos⟩
  · obtain ⟨S, h1, -, -, h4⟩ := default_region .base (by decide)
    refine ⟨S, h1, ?_⟩
    rw [h4]
    intro hcv
    have hin : (fun _ => 0 : Point) ∈ cylinderRegion (SpacetimeObj.dim .base) (fun _ => 0) 1 2 0 := by
      refine ⟨by simp, by simp [distFrom], by simp [distFrom]⟩
    have := hcv _ hin _ hin (planePt (fun _ => 0) 0 2) (by simp [SpacetimeObj.Says, SpacetimeObj.causality, causalityBase, test, planePt])
      (by simp [SpacetimeObj.Says, SpacetimeObj.causality, causalityBase, test, planePt])
    have h := this.2.2
    rw [planePt_dist1 _ _ _ (by decide)] at h
    norm_num at h

/-! ## Black holes -/

/-- **Specification.** The causality function, for points off the horizon. -/
def SaysOff (rS : ℝ) (m : BHMetric) (x y : Point) : Prop := |x 1| ≠ rS ∧ |y 1| ≠ rS ∧ SpacetimeObj.Says (.blackHole rS m) x y

theorem bh_cylinder (c : Point) (hc : c 1 = 0) (R T : ℝ) (x : Point) : x ∈ cylinderRegion 2 c R T 0 ↔ |x 0 - c 0| ≤ T / 2 ∧ |x 1| ≤ R := by
  have hd : distFrom 1 2 c x = |x 1| := by
    unfold distFrom
    rw [show Finset.Ico 1 2 = {1} by decide, Finset.sum_singleton, hc, sub_zero, Real.sqrt_sq_eq_abs]
  unfold cylinderRegion
  simp only [Set.mem_setOf_eq, hd, zero_mul, abs_nonneg, true_and]

theorem rayTime_decreasing_inside {rS : ℝ} (hS : 0 < rS) {r r' : ℝ} (h0 : 0 < r) (h : r < r') (h' : r' < rS) : rayTime 1 rS r' < rayTime 1 rS r := by
  unfold rayTime
  have u1 : 0 < 1 - r' / rS := by rw [sub_pos, div_lt_one hS]; exact h'
  have u2 : 0 < 1 - r / rS := by rw [sub_pos, div_lt_one hS]; linarith
  have a1 : |r' / rS - 1| = 1 - r' / rS := by rw [abs_of_neg (by linarith)]; ring
  have a2 : |r / rS - 1| = 1 - r / rS := by rw [abs_of_neg (by linarith)]; ring
  rw [a1, a2, one_mul]
  have hlog := Real.log_le_sub_one_of_pos (div_pos u1 u2)
  rw [Real.log_div u1.ne' u2.ne'] at hlog
  have h1 : (1 - r' / rS) / (1 - r / rS) - 1 < -((r' - r) / rS) := by
    rw [sub_lt_iff_lt_add, div_lt_iff₀ u2]
    have p : 0 < r / rS := by positivity
    have q : 0 < (r' - r) / rS := div_pos (by linarith) hS
    have e : r' / rS = r / rS + (r' - r) / rS := by ring
    rw [e]
    nlinarith [mul_pos p q]
  have h2 : rS * (Real.log (1 - r' / rS) - Real.log (1 - r / rS)) < rS * (-((r' - r) / rS)) := mul_lt_mul_of_pos_left (by linarith) hS
  have h3 : rS * (-((r' - r) / rS)) = -(r' - r) := by field_simp
  rw [h3] at h2
  linarith

/-- **C113, black hole in Eddington–Finkelstein coordinates.** A cylinder around the singularity (not hollow; points on the horizon left out) contains with any two points everything
between them exactly if it does not reach beyond the horizon. -/
theorem C113_EF (rS : ℝ) (hS : 0 < rS) (c : Point) (hc : c 1 = 0) (R T : ℝ) (hR : 0 < R) (hT : 0 < T) :
    CausallyConvex (SaysOff rS .eddingtonFinkelstein) (cylinderRegion 2 c R T 0) ↔ R ≤ rS := by
  have hsay : ∀ x y, SaysOff rS .eddingtonFinkelstein x y ↔ |x 1| ≠ rS ∧ |y 1| ≠ rS ∧ EFLe rS x y := by
    intro x y
    unfold SaysOff
    refine and_congr_right fun h1 => and_congr_right fun h2 => C44_EF hS x y h1 h2
  constructor
  · intro hcv
    by_contra hlt
    push Not at hlt
    have hf : ContinuousAt (fun δ : ℝ => rayTime 2 rS (R + δ) - rayTime 2 rS R) 0 := by
      have hne : |(R + 0) / rS - 1| ≠ 0 := by
        rw [add_zero, ne_eq, abs_eq_zero, sub_eq_zero, div_eq_one_iff_eq hS.ne']
        exact hlt.ne'
      unfold rayTime
      refine ContinuousAt.sub (ContinuousAt.add (by fun_prop) (ContinuousAt.mul (by fun_prop) ?_)) (by fun_prop)
      exact ContinuousAt.log (by fun_prop) hne
    have hf0 : rayTime 2 rS (R + 0) - rayTime 2 rS R < T / 2 := by rw [add_zero, sub_self]; linarith
    have hev := (hf.eventually (gt_mem_nhds hf0)).and (gt_mem_nhds (show (0 : ℝ) < T / 2 by linarith))
    obtain ⟨δ, ⟨h1, h2⟩, h3⟩ := ((hev.filter_mono nhdsWithin_le_nhds).and (self_mem_nhdsWithin : Set.Ioi (0 : ℝ) ∈ nhdsWithin 0 (Set.Ioi 0))).exists
    have h3' : 0 < δ := h3
    have p0 : ∀ a b, planePt c a b 0 = c 0 + a := fun a b => by simp [planePt]
    have p1 : ∀ a b, planePt c a b 1 = b := fun a b => by simp [planePt, hc]
    have hmono := rayTime_mono two_pos hS hlt (by linarith : R ≤ R + δ)
    have := hcv (planePt c (-(T / 2)) R) ((bh_cylinder c hc R T _).2 (by rw [p0, p1, add_sub_cancel_left, abs_neg, abs_of_pos hR, abs_of_pos (by linarith)]; exact ⟨le_refl _, le_refl _⟩))
      (planePt c (T / 2) R) ((bh_cylinder c hc R T _).2 (by rw [p0, p1, add_sub_cancel_left, abs_of_pos hR, abs_of_pos (by linarith)]; exact ⟨le_refl _, le_refl _⟩))
      (planePt c 0 (R + δ)) ?_ ?_
    · have h := ((bh_cylinder c hc R T _).1 this).2
      rw [p1, abs_of_pos (by linarith)] at h
      linarith
    · rw [hsay]
      unfold EFLe
      rw [p0, p1, p0, p1, abs_of_pos hR, abs_of_pos (by linarith : 0 < R + δ)]
      exact ⟨hlt.ne', (by linarith : rS < R + δ).ne', by positivity, by linarith, fun h => absurd h (by linarith), fun _ _ => by linarith⟩
    · rw [hsay]
      unfold EFLe
      rw [p0, p1, p0, p1, abs_of_pos hR, abs_of_pos (by linarith : 0 < R + δ)]
      exact ⟨(by linarith : rS < R + δ).ne', hlt.ne', by positivity, by linarith, fun h => absurd h (by linarith), fun _ _ => by linarith⟩
  · intro hle x hx y hy z hxz hzy
    rw [bh_cylinder c hc] at *
    rw [hsay] at hxz hzy
    obtain ⟨nx, nz, -, a1, a2, -⟩ := hxz
    obtain ⟨-, ny, -, b1, b2, -⟩ := hzy
    have ix : |x 1| < rS := lt_of_le_of_ne (hx.2.trans hle) nx
    obtain ⟨a3, -⟩ := a2 ix
    obtain ⟨b3, -⟩ := b2 (lt_of_le_of_lt a3 ix)
    refine ⟨?_, a3.trans hx.2⟩
    obtain ⟨hx1, -⟩ := hx
    obtain ⟨hy1, -⟩ := hy
    rw [abs_le] at hx1 hy1 ⊢
    constructor <;> linarith [hx1.1, hy1.2]

/-- **C113, refuted for black holes in Schwarzschild coordinates.** No cylinder around the singularity is causally convex: inside the horizon the coordinate `t` is no time. -/
theorem C113_Schwarzschild_refuted (rS : ℝ) (hS : 0 < rS) (c : Point) (hc : c 1 = 0) (R T : ℝ) (hR : 0 < R) (hT : 0 < T) :
    ¬ CausallyConvex (SaysOff rS .schwarzschild) (cylinderRegion 2 c R T 0) := by
  intro hcv
  have hs0 : 0 < min R (rS / 2) := lt_min hR (by linarith)
  have hs1 : min R (rS / 2) ≤ R := min_le_left _ _
  have hs2 : min R (rS / 2) < rS := lt_of_le_of_lt (min_le_right _ _) (by linarith)
  generalize min R (rS / 2) = s at *
  have r1 := rayTime_decreasing_inside hS (by linarith : 0 < s / 2) (by linarith : s / 2 < s) hs2
  have r2 := rayTime_decreasing_inside hS (by linarith : 0 < s / 4) (by linarith : s / 4 < s / 2) (by linarith)
  obtain ⟨δ, hδ, hδ1, hδ2⟩ : ∃ δ, 0 < δ ∧ δ ≤ rayTime 1 rS (s / 2) - rayTime 1 rS s ∧ δ ≤ rayTime 1 rS (s / 4) - rayTime 1 rS (s / 2) :=
    ⟨min _ _, lt_min (sub_pos.2 r1) (sub_pos.2 r2), min_le_left _ _, min_le_right _ _⟩
  have p0 : ∀ a b, planePt c a b 0 = c 0 + a := fun a b => by simp [planePt]
  have p1 : ∀ a b, planePt c a b 1 = b := fun a b => by simp [planePt, hc]
  have hsay : ∀ x y, |x 1| ≠ rS → |y 1| ≠ rS → SchwarzschildLe rS x y → SaysOff rS .schwarzschild x y := fun x y h1 h2 h3 => ⟨h1, h2, (C44_Schwarzschild hS x y h1 h2).2 h3⟩
  have := hcv (planePt c (T / 2) s) ((bh_cylinder c hc R T _).2 (by rw [p0, p1, add_sub_cancel_left, abs_of_pos hs0, abs_of_pos (by linarith)]; exact ⟨le_refl _, hs1⟩))
    (planePt c (T / 2) (s / 4)) ((bh_cylinder c hc R T _).2 (by rw [p0, p1, add_sub_cancel_left, abs_of_pos (by linarith : 0 < s / 4), abs_of_pos (by linarith)]; exact ⟨le_refl _, by linarith⟩))
    (planePt c (T / 2 + δ) (s / 2)) ?_ ?_
  · have h := ((bh_cylinder c hc R T _).1 this).1
    rw [p0, add_sub_cancel_left, abs_of_pos (by linarith)] at h
    linarith
  · refine hsay _ _ ?_ ?_ ?_
    · rw [p1, abs_of_pos hs0]; exact hs2.ne
    · rw [p1, abs_of_pos (by linarith : 0 < s / 2)]; linarith
    · unfold SchwarzschildLe
      rw [p0, p1, p0, p1, abs_of_pos hs0, abs_of_pos (by linarith : 0 < s / 2)]
      refine ⟨by positivity, fun _ => ⟨by linarith, ?_⟩, fun h => absurd h (by linarith), fun h => absurd h (by linarith)⟩
      rw [show c 0 + (T / 2 + δ) - (c 0 + T / 2) = δ by ring, abs_of_pos hδ]; exact hδ1
  · refine hsay _ _ ?_ ?_ ?_
    · rw [p1, abs_of_pos (by linarith : 0 < s / 2)]; linarith
    · rw [p1, abs_of_pos (by linarith : 0 < s / 4)]; linarith
    · unfold SchwarzschildLe
      rw [p0, p1, p0, p1, abs_of_pos (by linarith : 0 < s / 4), abs_of_pos (by linarith : 0 < s / 2)]
      refine ⟨by positivity, fun _ => ⟨by linarith, ?_⟩, fun h => absurd h (by linarith), fun h => absurd h (by linarith)⟩
      rw [show c 0 + T / 2 - (c 0 + (T / 2 + δ)) = -δ by ring, abs_neg, abs_of_pos hδ]; exact hδ2

/-- **C113, default shape of black holes** (points on the horizon left out): causally convex exactly in Eddington–Finkelstein coordinates with a Schwarzschild radius of at least 1; so not
for the default radius 0.5. -/
theorem C113_default_blackHole (rS : ℝ) (hS : 0 < rS) (m : BHMetric) :
    ∃ S, SpacetimeObj.defaultShape (.blackHole rS m) = .ok S ∧ (CausallyConvex (SaysOff rS m) S.region ↔ m = .eddingtonFinkelstein ∧ 1 ≤ rS) := by
  obtain ⟨S, h1, -, -, h4⟩ := default_region (.blackHole rS m) (by simp [SpacetimeObj.dim])
  refine ⟨S, h1, ?_⟩
  rw [h4]
  change CausallyConvex _ (cylinderRegion 2 _ 1 2 0) ↔ _
  cases m with
  | eddingtonFinkelstein => rw [C113_EF rS hS _ rfl 1 2 one_pos two_pos]; simp
  | schwarzschild => simp [C113_Schwarzschild_refuted rS hS (fun _ => 0) rfl 1 2 one_pos two_pos]

/-! ## Concrete cases -/

/-- C113: the default diamond of the plane contains the three points of a chain, and the middle one because it is between the others -/
example : ∃ S, SpacetimeObj.defaultShape (.flat ⟨2, false, none⟩) = .ok S ∧ planePt (fun _ => 0) 0 (1 / 2) ∈ S.region := by
  obtain ⟨S, h1, h2⟩ := C113_default_minkowski ⟨2, false, none⟩ rfl (by decide)
  obtain ⟨S', h1', -, -, h4⟩ := default_region (.flat ⟨2, false, none⟩) (by decide)
  rw [h1] at h1'
  cases h1'
  simp only [Bool.false_eq_true, if_false] at h4
  have hin : ∀ a, |a| ≤ (1 : ℝ) → planePt (fun _ => 0) a 0 ∈ S.region := by
    intro a ha
    rw [h4]
    refine ⟨by rw [zero_mul]; exact add_nonneg (abs_nonneg _) (Real.sqrt_nonneg _), ?_⟩
    rw [planePt_dist1 _ _ _ (by decide)]
    simpa [planePt] using ha
  refine ⟨S, h1, h2 _ (hin (-1) (by norm_num)) _ (hin 1 (by norm_num)) _ ?_ ?_⟩
  · rw [says_minkowski rfl (by decide), planePt_le _ _ _ _ _ (by decide)]; norm_num [abs_of_pos]
  · rw [says_minkowski rfl (by decide), planePt_le _ _ _ _ _ (by decide)]; norm_num [abs_of_pos]

/-- C113: the periodic spacetime with period 1 in all directions meets both conditions -/
example : FlatSpacetime.init 3 (.float 1) = .ok ⟨3, true, some [1, 1]⟩ ∧ ∀ i, 1 ≤ i → i < 3 → (FlatSpacetime.mk 3 true (some [1, 1])).periods (i - 1) = 1 := by
  refine ⟨by simp [FlatSpacetime.init, List.replicate], fun i h1 h2 => ?_⟩
  interval_cases i <;> simp [FlatSpacetime.periods]

end Causets
