import Verif.Props.Surfaces

/-! # C70 — `CoordinateShape.plot` draws the boundary of the cut through the centre (shapes.py) -/

namespace Causets
open CoordinateShape

/-! ## Specification -/

/-- **Specification.** The boundary of the region of a shape. -/
def CoordinateShape.boundary (S : CoordinateShape) : Set Point :=
  let c := S.centerPoint
  let r := S.radius.getD 0
  let h := S.hollow.getD 0
  if S.name = "ball" then {x | distFrom 0 S.dim c x = r ∨ (0 < h ∧ distFrom 0 S.dim c x = h * r)}
  else if S.name = "bicone" then
    {x | |x 0 - c 0| + distFrom 1 S.dim c x = r ∨ (0 < h ∧ |x 0 - c 0| + distFrom 1 S.dim c x = h * r)}
  else if S.name = "cylinder" then
    {x | x ∈ S.region ∧ (|x 0 - c 0| = S.duration.getD 0 / 2 ∨ distFrom 1 S.dim c x = r ∨ (0 < h ∧ distFrom 1 S.dim c x = h * r))}
  else if S.name = "cube" then {x | x ∈ S.region ∧ ∃ i < S.dim, |x i - c i| = S.edge.getD 0 / 2}
  else {x | x ∈ S.region ∧ ∃ i < S.dim, |x i - c i| = (S.edges.getD []).getD i 0 / 2}

/-- **Specification.** The point of the cut through the centre with the given coordinates in the plotted dimensions. -/
noncomputable def cut2 (c : Point) (d0 d1 : ℕ) (p : ℝ × ℝ) : Point := fun i => if i = d0 then p.1 else if i = d1 then p.2 else c i
noncomputable def cut3 (c : Point) (d0 d1 d2 : ℕ) (p : ℝ × ℝ × ℝ) : Point :=
  fun i => if i = d0 then p.1 else if i = d1 then p.2.1 else if i = d2 then p.2.2 else c i

/-- **Specification.** The outline of a patch: the edges of a rectangle, a circle, the corners of a polygon. -/
def Patch2.outline : Patch2 → Set (ℝ × ℝ)
  | .rectangle c w h => rectangleCurve c.1 c.2 w h
  | .circle c r => circleCurve c r
  | .polygon rows => {p | some p ∈ rows}

/-! ## Distances in a cut -/

theorem sum_cut3 (c : Point) {d0 d1 d2 dim : ℕ} (h0 : d0 < dim) (h1 : d1 < dim) (h2 : d2 < dim) (h01 : d0 ≠ d1) (h02 : d0 ≠ d2) (h12 : d1 ≠ d2)
    (p : ℝ × ℝ × ℝ) (k : ℕ) :
    ∑ i ∈ Finset.Ico k dim, (cut3 c d0 d1 d2 p i - c i) ^ 2 =
      (if k ≤ d0 then (p.1 - c d0) ^ 2 else 0) + (if k ≤ d1 then (p.2.1 - c d1) ^ 2 else 0) + (if k ≤ d2 then (p.2.2 - c d2) ^ 2 else 0) := by
  have e : ∀ i, (cut3 c d0 d1 d2 p i - c i) ^ 2 = (if i = d0 then (p.1 - c d0) ^ 2 else 0) + (if i = d1 then (p.2.1 - c d1) ^ 2 else 0) +
      (if i = d2 then (p.2.2 - c d2) ^ 2 else 0) := by
    intro i
    unfold cut3
    by_cases a : i = d0
    · subst a; simp [h01, h02]
    · by_cases b : i = d1
      · subst b; simp [h12, a]
      · by_cases d : i = d2
        · subst d; simp [a, b]
        · simp [a, b, d]
  simp only [e, Finset.sum_add_distrib, Finset.sum_ite_eq', Finset.mem_Ico, h0, h1, h2, and_true]

theorem sum_cut2 (c : Point) {d0 d1 dim : ℕ} (h0 : d0 < dim) (h1 : d1 < dim) (h01 : d0 ≠ d1) (p : ℝ × ℝ) (k : ℕ) :
    ∑ i ∈ Finset.Ico k dim, (cut2 c d0 d1 p i - c i) ^ 2 =
      (if k ≤ d0 then (p.1 - c d0) ^ 2 else 0) + (if k ≤ d1 then (p.2 - c d1) ^ 2 else 0) := by
  have e : ∀ i, (cut2 c d0 d1 p i - c i) ^ 2 = (if i = d0 then (p.1 - c d0) ^ 2 else 0) + (if i = d1 then (p.2 - c d1) ^ 2 else 0) := by
    intro i
    unfold cut2
    by_cases a : i = d0
    · subst a; simp [h01]
    · by_cases b : i = d1
      · subst b; simp [a]
      · simp [a, b]
  simp only [e, Finset.sum_add_distrib, Finset.sum_ite_eq', Finset.mem_Ico, h0, h1, and_true]

theorem sqrt_sq' {r x : ℝ} (hr : 0 ≤ r) (h : x = r ^ 2) : Real.sqrt x = r := by rw [h, Real.sqrt_sq hr]

theorem dist3_zero (c : Point) {d0 d1 d2 dim : ℕ} (h0 : d0 < dim) (h1 : d1 < dim) (h2 : d2 < dim) (h01 : d0 ≠ d1) (h02 : d0 ≠ d2) (h12 : d1 ≠ d2)
    (p : ℝ × ℝ × ℝ) : distFrom 0 dim c (cut3 c d0 d1 d2 p) = Real.sqrt ((p.1 - c d0) ^ 2 + (p.2.1 - c d1) ^ 2 + (p.2.2 - c d2) ^ 2) := by
  rw [distFrom, sum_cut3 c h0 h1 h2 h01 h02 h12]; simp

theorem dist2_zero (c : Point) {d0 d1 dim : ℕ} (h0 : d0 < dim) (h1 : d1 < dim) (h01 : d0 ≠ d1) (p : ℝ × ℝ) :
    distFrom 0 dim c (cut2 c d0 d1 p) = Real.sqrt ((p.1 - c d0) ^ 2 + (p.2 - c d1) ^ 2) := by
  rw [distFrom, sum_cut2 c h0 h1 h01]; simp

/-- the cone mantle with tip at `c ∓ r` along the third axis, in terms of time and distance -/
theorem cone_time {c p : ℝ × ℝ × ℝ} {r : ℝ} (hr : 0 ≤ r) (hp : p ∈ coneMantle 2 (setAxis c 2 (· - r)) r r ∨ p ∈ coneMantle 2 (setAxis c 2 (· + r)) r (-r)) :
    |p.2.2 - c.2.2| + Real.sqrt ((p.1 - c.1) ^ 2 + (p.2.1 - c.2.1) ^ 2) = r := by
  rcases hp with ⟨s, h0, h1, h2, h3⟩ | ⟨s, h0, h1, h2, h3⟩
  · simp [along, axisDistSq, setAxis] at h2 h3
    rw [sqrt_sq' (by positivity : 0 ≤ s * r) (by rw [h3, mul_pow]), h2, abs_of_nonpos (by nlinarith)]
    ring
  · simp [along, axisDistSq, setAxis] at h2 h3
    rw [sqrt_sq' (by positivity : 0 ≤ s * r) (by rw [h3, mul_pow]), h2, abs_of_nonneg (by nlinarith)]
    ring

theorem face_corner {c e : ℝ × ℝ × ℝ} {A : Set (ℝ × ℝ × ℝ)} (hA : A ∈ (cuboidSurface c e).map Patch.points) {p : ℝ × ℝ × ℝ} (hp : p ∈ A) :
    (p.1 = c.1 - e.1 / 2 ∨ p.1 = c.1 + e.1 / 2) ∧ (p.2.1 = c.2.1 - e.2.1 / 2 ∨ p.2.1 = c.2.1 + e.2.1 / 2) ∧
      (p.2.2 = c.2.2 - e.2.2 / 2 ∨ p.2.2 = c.2.2 + e.2.2 / 2) := by
  rw [C69_cuboid] at hA
  have : ∃ a s, p ∈ faceCorners c e a s := by
    simp only [List.mem_cons, List.not_mem_nil, or_false] at hA
    rcases hA with rfl | rfl | rfl | rfl | rfl | rfl <;> exact ⟨_, _, hp⟩
  obtain ⟨a, s, _, h⟩ := this
  have x := h 0 (by simp)
  have y := h 1 (by simp)
  have z := h 2 (by simp)
  simp [along] at x y z
  exact ⟨x, y, z⟩

theorem abs_half {x c e : ℝ} (he : 0 ≤ e) (h : x = c - e / 2 ∨ x = c + e / 2) : |x - c| = e / 2 := by
  rcases h with h | h
  · rw [h, show c - e / 2 - c = -(e / 2) by ring, abs_neg, abs_of_nonneg (by linarith)]
  · rw [h, show c + e / 2 - c = e / 2 by ring, abs_of_nonneg (by linarith)]

theorem cuboid_cut {d : ℕ} {c : Point} (e : ℕ → ℝ) (he : ∀ i < d, 0 ≤ e i) {d0 d1 d2 : ℕ} (h01 : d0 ≠ d1) (h02 : d0 ≠ d2) (h12 : d1 ≠ d2) (h0 : d0 < d) (h1 : d1 < d) (h2 : d2 < d)
    {p : ℝ × ℝ × ℝ} (hp : (p.1 = c d0 - e d0 / 2 ∨ p.1 = c d0 + e d0 / 2) ∧ (p.2.1 = c d1 - e d1 / 2 ∨ p.2.1 = c d1 + e d1 / 2) ∧
      (p.2.2 = c d2 - e d2 / 2 ∨ p.2.2 = c d2 + e d2 / 2)) :
    cut3 c d0 d1 d2 p ∈ cuboidRegion d c e ∧ |cut3 c d0 d1 d2 p d0 - c d0| = e d0 / 2 := by
  have e0 : |p.1 - c d0| = e d0 / 2 := abs_half (he _ h0) hp.1
  have e1 : |p.2.1 - c d1| = e d1 / 2 := abs_half (he _ h1) hp.2.1
  have e2 : |p.2.2 - c d2| = e d2 / 2 := abs_half (he _ h2) hp.2.2
  refine ⟨fun i hi => ?_, by simpa [cut3] using e0⟩
  unfold cut3
  split_ifs with a b g
  · rw [a, e0]
  · rw [b, e1]
  · rw [g, e2]
  · rw [sub_self, abs_zero]; linarith [he i hi]

/-- **C70 (partial), three dimensions.** For every shape and three different dimensions of it: every point of every surface returned by `plot` lies on the boundary of the shape, in the
cut through its centre — provided that for a bicone or a cylinder the time dimension 0 is not at the first or second place of `dims`. -/
theorem C70_plot3_partial (S : CoordinateShape) (hS : S.WellFormed) {d0 d1 d2 : ℕ} (h0 : d0 < S.dim) (h1 : d1 < S.dim) (h2 : d2 < S.dim)
    (h01 : d0 ≠ d1) (h02 : d0 ≠ d2) (h12 : d1 ≠ d2) (ht : S.name = "bicone" ∨ S.name = "cylinder" → d0 ≠ 0 ∧ d1 ≠ 0) :
    ∀ P ∈ S.plot3 d0 d1 d2, ∀ p ∈ P.points, cut3 S.centerPoint d0 d1 d2 p ∈ S.boundary := by
  obtain ⟨hd, hc, h⟩ := hS
  -- balls in space
  have hball : ∀ (c : ℝ × ℝ × ℝ) (q : ℝ), 0 ≤ q → ∀ p ∈ (ballSurface c q (-1)).points,
      Real.sqrt ((p.1 - c.1) ^ 2 + (p.2.1 - c.2.1) ^ 2 + (p.2.2 - c.2.2) ^ 2) = q := fun c q hq p hp => sqrt_sq' hq ((C69_ball c q (-1)).1 hp)
  rcases h with ⟨r, h, g1, g2, g3, hS⟩ | ⟨r, h, g1, g2, g3, hS⟩ | ⟨r, h, t, g1, g2, g3, g4, hS⟩ | ⟨a, g1, hS⟩ | ⟨as, g1, g2, hS⟩
  · generalize S.dim = d at *
    generalize S.center = c at *
    subst hS
    intro P hP p hp
    simp only [boundary, if_true, Option.getD_some, Set.mem_setOf_eq]
    rw [dist3_zero _ h0 h1 h2 h01 h02 h12]
    simp only [plot3, String.reduceEq, if_true, if_false, true_or, Option.getD_some, test, gt_iff_lt, decide_eq_true_eq] at hP
    split_ifs at hP with hh
    · simp only [List.cons_append, List.nil_append, List.mem_cons, List.not_mem_nil, or_false] at hP
      rcases hP with rfl | rfl
      · exact Or.inr ⟨hh, hball _ _ (by positivity) p hp⟩
      · exact Or.inl (hball _ _ g1.le p hp)
    · simp only [List.mem_cons, List.not_mem_nil, or_false] at hP
      subst hP
      exact Or.inl (hball _ _ g1.le p hp)
  · have ht' := ht (Or.inl (by rw [hS]))
    clear ht
    generalize S.dim = d at *
    generalize S.center = c at *
    subst hS
    intro P hP p hp
    simp only [boundary, if_true, if_false, String.reduceEq, Option.getD_some, Set.mem_setOf_eq]
    rw [distFrom, sum_cut3 _ h0 h1 h2 h01 h02 h12, if_pos (by omega), if_pos (by omega)]
    simp only [plot3, String.reduceEq, if_true, if_false, or_false, false_or, and_true, ht'.1, ht'.2, Option.getD_some, test, gt_iff_lt, decide_eq_true_eq] at hP
    by_cases hd2 : d2 = 0
    · subst hd2
      rw [if_neg (by omega)]
      have e0 : cut3 (CoordinateShape.centerPoint ⟨d, "bicone", c, some r, some h, none, none, none⟩) d0 d1 0 p 0 = p.2.2 := by
        simp [cut3, Ne.symm h02, Ne.symm h12]
      rw [e0, add_zero]
      simp only [if_true, Int.reduceLT, if_false] at hP
      have hcone : ∀ q, 0 ≤ q → (P = openConeSurface (setAxis (c.getD d0 0, c.getD d1 0, c.getD 0 0) 2 (· - q)) q q 2 (-1) ∨
          P = openConeSurface (setAxis (c.getD d0 0, c.getD d1 0, c.getD 0 0) 2 (· + q)) q (-q) 2 (-1)) →
          |p.2.2 - c.getD 0 0| + Real.sqrt ((p.1 - c.getD d0 0) ^ 2 + (p.2.1 - c.getD d1 0) ^ 2) = q := by
        intro q hq hPq
        refine cone_time (c := (c.getD d0 0, c.getD d1 0, c.getD 0 0)) hq ?_
        rcases hPq with rfl | rfl
        · exact Or.inl ((C69_cone_partial _ _ _ _).2 hp)
        · exact Or.inr ((C69_cone_partial _ _ _ _).2 hp)
      split_ifs at hP with hh
      · simp only [List.cons_append, List.nil_append, List.mem_cons, List.not_mem_nil, or_false] at hP
        rcases hP with hP | hP | hP | hP
        · exact Or.inr ⟨hh, (hcone (r * h) (by positivity) (Or.inl hP)).trans (mul_comm _ _)⟩
        · exact Or.inr ⟨hh, (hcone (r * h) (by positivity) (Or.inr hP)).trans (mul_comm _ _)⟩
        · exact Or.inl (hcone r g1.le (Or.inl hP))
        · exact Or.inl (hcone r g1.le (Or.inr hP))
      · simp only [List.mem_cons, List.not_mem_nil, or_false] at hP
        exact Or.inl (hcone r g1.le hP)
    · rw [if_pos (by omega)]
      have e0 : cut3 (CoordinateShape.centerPoint ⟨d, "bicone", c, some r, some h, none, none, none⟩) d0 d1 d2 p 0 =
          (CoordinateShape.centerPoint ⟨d, "bicone", c, some r, some h, none, none, none⟩) 0 := by
        simp [cut3, Ne.symm ht'.1, Ne.symm ht'.2, Ne.symm hd2]
      rw [e0, sub_self, abs_zero, zero_add]
      simp only [hd2, if_false, Int.reduceNeg, Int.reduceLT, if_true, Left.neg_neg_iff, zero_lt_one] at hP
      split_ifs at hP with hh
      · simp only [List.cons_append, List.nil_append, List.mem_cons, List.not_mem_nil, or_false] at hP
        rcases hP with rfl | rfl
        · exact Or.inr ⟨hh, hball _ _ (by positivity) p hp⟩
        · exact Or.inl (hball _ _ g1.le p hp)
      · simp only [List.mem_cons, List.not_mem_nil, or_false] at hP
        subst hP
        exact Or.inl (hball _ _ g1.le p hp)
  · have ht' := ht (Or.inr (by rw [hS]))
    clear ht
    generalize S.dim = d at *
    generalize S.center = c at *
    subst hS
    intro P hP p hp
    simp only [boundary, region, cylinderRegion, if_true, if_false, String.reduceEq, Option.getD_some, Set.mem_setOf_eq]
    rw [distFrom, sum_cut3 _ h0 h1 h2 h01 h02 h12, if_pos (by omega), if_pos (by omega)]
    simp only [plot3, String.reduceEq, if_true, if_false, or_true, false_or, and_true, ht'.1, ht'.2, Option.getD_some, test, gt_iff_lt, decide_eq_true_eq] at hP
    by_cases hd2 : d2 = 0
    · subst hd2
      rw [if_neg (by omega)]
      have e0 : cut3 (CoordinateShape.centerPoint ⟨d, "cylinder", c, some r, some h, some t, none, none⟩) d0 d1 0 p 0 = p.2.2 := by
        simp [cut3, Ne.symm h02, Ne.symm h12]
      rw [e0, add_zero]
      simp only [if_true, Int.reduceLT, if_false, List.mem_cons, List.not_mem_nil, or_false] at hP
      subst hP
      obtain ⟨k1, k2, k3, k4⟩ := (C69_cylinder_partial _ g4.le g2 g3.le _).2 hp
      simp [along, axisDistSq] at k1 k2 k3 k4
      have hhr : 0 ≤ h * r := by positivity
      have k2' : h * r ≤ Real.sqrt ((p.1 - c.getD d0 0) ^ 2 + (p.2.1 - c.getD d1 0) ^ 2) := Real.le_sqrt_of_sq_le (by simpa using k2)
      have k3' : Real.sqrt ((p.1 - c.getD d0 0) ^ 2 + (p.2.1 - c.getD d1 0) ^ 2) ≤ r := by
        rw [← Real.sqrt_sq g1.le]; exact Real.sqrt_le_sqrt (by simpa using k3)
      refine ⟨⟨by simpa [centerPoint] using k1, k2', k3'⟩, ?_⟩
      rcases k4 with k4 | k4 | ⟨hh, k4⟩
      · exact Or.inl (by simpa [centerPoint] using k4)
      · exact Or.inr (Or.inl (sqrt_sq' g1.le (by simpa [centerPoint] using k4)))
      · exact Or.inr (Or.inr ⟨hh, sqrt_sq' hhr (by simpa [centerPoint] using k4)⟩)
    · rw [if_pos (by omega)]
      have e0 : cut3 (CoordinateShape.centerPoint ⟨d, "cylinder", c, some r, some h, some t, none, none⟩) d0 d1 d2 p 0 =
          (CoordinateShape.centerPoint ⟨d, "cylinder", c, some r, some h, some t, none, none⟩) 0 := by
        simp [cut3, Ne.symm ht'.1, Ne.symm ht'.2, Ne.symm hd2]
      rw [e0, sub_self, abs_zero]
      simp only [hd2, if_false, Int.reduceNeg, Int.reduceLT, if_true, Left.neg_neg_iff, zero_lt_one] at hP
      have fin : ∀ q : ℝ, Real.sqrt ((p.1 - c.getD d0 0) ^ 2 + (p.2.1 - c.getD d1 0) ^ 2 + (p.2.2 - c.getD d2 0) ^ 2) = q → q = r ∨ (0 < h ∧ q = h * r) →
          (0 ≤ t / 2 ∧ h * r ≤ Real.sqrt ((p.1 - c.getD d0 0) ^ 2 + (p.2.1 - c.getD d1 0) ^ 2 + (p.2.2 - c.getD d2 0) ^ 2) ∧
            Real.sqrt ((p.1 - c.getD d0 0) ^ 2 + (p.2.1 - c.getD d1 0) ^ 2 + (p.2.2 - c.getD d2 0) ^ 2) ≤ r) ∧
          (0 = t / 2 ∨ Real.sqrt ((p.1 - c.getD d0 0) ^ 2 + (p.2.1 - c.getD d1 0) ^ 2 + (p.2.2 - c.getD d2 0) ^ 2) = r ∨
            0 < h ∧ Real.sqrt ((p.1 - c.getD d0 0) ^ 2 + (p.2.1 - c.getD d1 0) ^ 2 + (p.2.2 - c.getD d2 0) ^ 2) = h * r) := by
        intro q hq hq'
        rw [hq]
        refine ⟨⟨by linarith, ?_, ?_⟩, Or.inr hq'⟩
        · rcases hq' with rfl | ⟨_, rfl⟩
          · nlinarith
          · exact le_rfl
        · rcases hq' with rfl | ⟨_, rfl⟩
          · exact le_rfl
          · nlinarith
      split_ifs at hP with hh
      · simp only [List.cons_append, List.nil_append, List.mem_cons, List.not_mem_nil, or_false] at hP
        rcases hP with rfl | rfl
        · exact fin _ (hball _ _ (by positivity) p hp) (Or.inr ⟨hh, rfl⟩)
        · exact fin _ (hball _ _ g1.le p hp) (Or.inl rfl)
      · simp only [List.mem_cons, List.not_mem_nil, or_false] at hP
        subst hP
        exact fin _ (hball _ _ g1.le p hp) (Or.inl rfl)
  · generalize S.dim = d at *
    generalize S.center = c at *
    subst hS
    intro P hP p hp
    have hb : cut3 (fun i => c.getD i 0) d0 d1 d2 p ∈ cuboidRegion d (fun i => c.getD i 0) (fun _ => a) ∧
        |cut3 (fun i => c.getD i 0) d0 d1 d2 p d0 - c.getD d0 0| = a / 2 := by
      refine cuboid_cut (fun _ => a) (fun i _ => g1.le) h01 h02 h12 h0 h1 h2 ?_
      have hPm : P.points ∈ (cuboidSurface (c.getD d0 0, c.getD d1 0, c.getD d2 0) (a, a, a)).map Patch.points := by
        refine List.mem_map.2 ⟨P, ?_, rfl⟩
        simpa only [plot3, if_true, Option.getD_some, cubeSurface] using hP
      exact face_corner hPm hp
    simp only [boundary, region, if_true, if_false, String.reduceEq, Option.getD_some, Set.mem_setOf_eq]
    exact ⟨hb.1, d0, h0, hb.2⟩
  · generalize S.dim = d at *
    generalize S.center = c at *
    subst hS
    intro P hP p hp
    have hb : cut3 (fun i => c.getD i 0) d0 d1 d2 p ∈ cuboidRegion d (fun i => c.getD i 0) (fun i => as.getD i 0) ∧
        |cut3 (fun i => c.getD i 0) d0 d1 d2 p d0 - c.getD d0 0| = as.getD d0 0 / 2 := by
      refine cuboid_cut (fun i => as.getD i 0) (fun i hi => (g2 _ (getD_mem_real as (by omega))).le) h01 h02 h12 h0 h1 h2 ?_
      have hPm : P.points ∈ (cuboidSurface (c.getD d0 0, c.getD d1 0, c.getD d2 0) (as.getD d0 0, as.getD d1 0, as.getD d2 0)).map Patch.points := by
        refine List.mem_map.2 ⟨P, ?_, rfl⟩
        simpa [plot3] using hP
      exact face_corner hPm hp
    simp only [boundary, region, if_true, if_false, String.reduceEq, Option.getD_some, Set.mem_setOf_eq]
    exact ⟨hb.1, d0, h0, hb.2⟩

/-- the corners of a ring lie on its curve -/
theorem ring_mem {curve : Set (ℝ × ℝ)} {m : ℕ} {c : ℝ × ℝ} {a : ℝ} {rows : List (Option (ℝ × ℝ))} (h : IsRing curve m c a rows) {p : ℝ × ℝ} (hp : some p ∈ rows) :
    p ∈ curve := by
  obtain ⟨k, hk, e⟩ := List.mem_iff_getElem.1 hp
  obtain ⟨q, hq, e'⟩ := h.2.2.1 k (by have := h.1; omega)
  rw [List.getElem?_eq_getElem hk, e] at e'
  simp only [Option.some.injEq] at e'
  rwa [e']

/-- the corners of the edge of a (hollow) circle -/
theorem circle_rows (junk : ℕ → Option (ℝ × ℝ)) (c : ℝ × ℝ) {r h : ℝ} (hr : 0 < r) (h0 : 0 < h) {p : ℝ × ℝ} (hp : some p ∈ circleEdge junk c r h (-1)) :
    Real.sqrt ((p.1 - c.1) ^ 2 + (p.2 - c.2) ^ 2) = r ∨ (0 < h ∧ Real.sqrt ((p.1 - c.1) ^ 2 + (p.2 - c.2) ^ 2) = h * r) := by
  obtain ⟨_, o, i, e, ho, hi⟩ := (C55_circle junk c r h (-1) hr.ne').2 h0
  rw [e] at hp
  simp only [List.mem_append, List.mem_singleton, reduceCtorEq, or_false] at hp
  rcases hp with hp | hp
  · exact Or.inl (sqrt_sq' hr.le (ring_mem ho hp))
  · exact Or.inr ⟨h0, sqrt_sq' (by positivity) (ring_mem hi hp)⟩

/-- the corners of the edge of a (hollow) bicone -/
theorem bicone_rows (c : ℝ × ℝ) {r h : ℝ} (hr : 0 < r) {p : ℝ × ℝ} (hp : some p ∈ biconeEdge c r h) :
    |p.1 - c.1| + |p.2 - c.2| = r ∨ (0 < h ∧ |p.1 - c.1| + |p.2 - c.2| = h * r) := by
  by_cases h0 : 0 < h
  · obtain ⟨_, o, i, e, ho, hi⟩ := (C55_bicone c r h hr.le).2 h0
    rw [e] at hp
    simp only [List.mem_append, List.mem_singleton, reduceCtorEq, or_false] at hp
    rcases hp with hp | hp
    · exact Or.inl (ring_mem ho hp)
    · exact Or.inr ⟨h0, ring_mem hi hp⟩
  · exact Or.inl (ring_mem ((C55_bicone c r h hr.le).1 (not_lt.1 h0)) hp)

/-- the corners of the cut through a (hollow) cylinder -/
theorem cylinder_rows (c : ℝ × ℝ) {r t h : ℝ} (hr : 0 < r) (ht : 0 < t) (h0 : 0 ≤ h) {p : ℝ × ℝ} (hp : some p ∈ cylinderCutEdge c r t h) :
    |p.2 - c.2| = t / 2 ∧ (|p.1 - c.1| = r ∨ (0 < h ∧ |p.1 - c.1| = h * r)) := by
  have hz : ∀ y : ℝ, y = c.2 - t / 2 ∨ y = c.2 - t / 2 + t → |y - c.2| = t / 2 := by
    intro y hy
    refine abs_half ht.le ?_
    rcases hy with hy | hy
    · exact Or.inl hy
    · right; linarith
  have hhr : 0 ≤ h * r := by positivity
  by_cases hh : h = 0
  · simp only [cylinderCutEdge, test, hh, decide_true, if_true, rectangleEdge, List.mem_cons, Option.some.injEq, List.not_mem_nil, or_false] at hp
    have hx : ∀ x : ℝ, x = c.1 - r ∨ x = c.1 - r + 2 * r → |x - c.1| = r := by
      intro x hx
      have := abs_half (x := x) (c := c.1) (e := 2 * r) (by linarith) (by rcases hx with h | h; · left; linarith
                                                                          · right; linarith)
      rw [this]; ring
    rcases hp with rfl | rfl | rfl | rfl | rfl <;> exact ⟨hz _ (by simp), Or.inl (hx _ (by simp))⟩
  · have h0' : 0 < h := lt_of_le_of_ne h0 (Ne.symm hh)
    simp only [cylinderCutEdge, test, hh, decide_false, Bool.false_eq_true, if_false, rectangleEdge, List.mem_cons, List.mem_append, Option.some.injEq,
      List.not_mem_nil, or_false, reduceCtorEq, false_or] at hp
    have hx1 : |c.1 - r - c.1| = r := by rw [show c.1 - r - c.1 = -r by ring, abs_neg, abs_of_pos hr]
    have hx2 : |c.1 - r + (1 - h) * r - c.1| = h * r := by
      rw [show c.1 - r + (1 - h) * r - c.1 = -(h * r) by ring, abs_neg, abs_of_nonneg hhr]
    have hx3 : |c.1 + h * r - c.1| = h * r := by rw [add_sub_cancel_left, abs_of_nonneg hhr]
    have hx4 : |c.1 + h * r + (1 - h) * r - c.1| = r := by
      rw [show c.1 + h * r + (1 - h) * r - c.1 = r by ring, abs_of_pos hr]
    rcases hp with (rfl | rfl | rfl | rfl | rfl) | (rfl | rfl | rfl | rfl | rfl)
    · exact ⟨hz _ (by simp), Or.inl hx1⟩
    · exact ⟨hz _ (by simp), Or.inr ⟨h0', hx2⟩⟩
    · exact ⟨hz _ (by simp), Or.inr ⟨h0', hx2⟩⟩
    · exact ⟨hz _ (by simp), Or.inl hx1⟩
    · exact ⟨hz _ (by simp), Or.inl hx1⟩
    · exact ⟨hz _ (by simp), Or.inr ⟨h0', hx3⟩⟩
    · exact ⟨hz _ (by simp), Or.inl hx4⟩
    · exact ⟨hz _ (by simp), Or.inl hx4⟩
    · exact ⟨hz _ (by simp), Or.inr ⟨h0', hx3⟩⟩
    · exact ⟨hz _ (by simp), Or.inr ⟨h0', hx3⟩⟩

theorem rect_cut {d : ℕ} {c : Point} (e : ℕ → ℝ) (he : ∀ i < d, 0 ≤ e i) {d0 d1 : ℕ} (h01 : d0 ≠ d1) (h0 : d0 < d) (h1 : d1 < d)
    {p : ℝ × ℝ} (hp : p ∈ rectangleCurve (c d0 - 0.5 * e d0) (c d1 - 0.5 * e d1) (e d0) (e d1)) :
    cut2 c d0 d1 p ∈ cuboidRegion d c e ∧ ∃ i < d, |cut2 c d0 d1 p i - c i| = e i / 2 := by
  obtain ⟨k1, k2, k3, k4, k5⟩ := hp
  norm_num at k1 k2 k3 k4 k5
  have c0 : cut2 c d0 d1 p d0 = p.1 := by simp [cut2]
  have c1 : cut2 c d0 d1 p d1 = p.2 := by simp [cut2, Ne.symm h01]
  refine ⟨fun i hi => ?_, ?_⟩
  · by_cases a : i = d0
    · rw [a, c0]; exact abs_le.2 ⟨by linarith, by linarith⟩
    · by_cases b : i = d1
      · rw [b, c1]; exact abs_le.2 ⟨by linarith, by linarith⟩
      · have : cut2 c d0 d1 p i = c i := by simp [cut2, a, b]
        rw [this, sub_self, abs_zero]; linarith [he i hi]
  · rcases k5 with k | k | k | k
    · exact ⟨d0, h0, by rw [c0]; exact abs_half (he _ h0) (Or.inl (by linarith))⟩
    · exact ⟨d0, h0, by rw [c0]; exact abs_half (he _ h0) (Or.inr (by linarith))⟩
    · exact ⟨d1, h1, by rw [c1]; exact abs_half (he _ h1) (Or.inl (by linarith))⟩
    · exact ⟨d1, h1, by rw [c1]; exact abs_half (he _ h1) (Or.inr (by linarith))⟩

/-- **C70 (partial), two dimensions.** For every shape and two different dimensions of it: the outline of the patch drawn by `plot` lies on the boundary of the shape, in the cut through
its centre — provided that for a cylinder the time dimension 0 is not the first entry of `dims`. -/
theorem C70_plot2_partial (S : CoordinateShape) (hS : S.WellFormed) (junk : ℕ → Option (ℝ × ℝ)) {d0 d1 : ℕ} (h0 : d0 < S.dim) (h1 : d1 < S.dim)
    (h01 : d0 ≠ d1) (ht : S.name = "cylinder" → d0 ≠ 0) :
    ∀ p ∈ (S.plot2 junk d0 d1).outline, cut2 S.centerPoint d0 d1 p ∈ S.boundary := by
  obtain ⟨hd, hc, h⟩ := hS
  -- discs in space
  have hdisc : ∀ (c : ℝ × ℝ) (r h : ℝ), 0 < r → 0 ≤ h →
      ∀ p ∈ (if test (h = 0) then Patch2.circle c r else .polygon (circleEdge junk c r h (-1))).outline,
      Real.sqrt ((p.1 - c.1) ^ 2 + (p.2 - c.2) ^ 2) = r ∨ (0 < h ∧ Real.sqrt ((p.1 - c.1) ^ 2 + (p.2 - c.2) ^ 2) = h * r) := by
    intro c r h hr h0 p hp
    by_cases hh : h = 0
    · rw [if_pos (by simp [test, hh])] at hp
      exact Or.inl (sqrt_sq' hr.le hp)
    · rw [if_neg (by simp [test, hh])] at hp
      exact circle_rows junk c hr (lt_of_le_of_ne h0 (Ne.symm hh)) hp
  rcases h with ⟨r, h, g1, g2, g3, hS⟩ | ⟨r, h, g1, g2, g3, hS⟩ | ⟨r, h, t, g1, g2, g3, g4, hS⟩ | ⟨a, g1, hS⟩ | ⟨as, g1, g2, hS⟩
  · generalize S.dim = d at *
    generalize S.center = c at *
    subst hS
    intro p hp
    simp only [boundary, if_true, Option.getD_some, Set.mem_setOf_eq]
    rw [dist2_zero _ h0 h1 h01]
    simp only [plot2, String.reduceEq, if_true, if_false, true_or, Option.getD_some] at hp
    exact hdisc _ r h g1 g2 p hp
  · generalize S.dim = d at *
    generalize S.center = c at *
    subst hS
    intro p hp
    simp only [boundary, if_true, if_false, String.reduceEq, Option.getD_some, Set.mem_setOf_eq]
    rw [distFrom, sum_cut2 _ h0 h1 h01]
    simp only [plot2, String.reduceEq, if_true, if_false, or_false, false_or, and_true, Option.getD_some] at hp
    have hz : cut2 (CoordinateShape.centerPoint ⟨d, "bicone", c, some r, some h, none, none, none⟩) d0 d1 p 0 =
        if 0 = d0 then p.1 else if 0 = d1 then p.2 else c.getD 0 0 := rfl
    rw [hz]
    by_cases a : d0 = 0
    · subst a
      simp only [if_true, lt_irrefl, if_false] at hp
      rw [if_pos rfl, if_neg (by omega), if_pos (by omega), zero_add, Real.sqrt_sq_eq_abs]
      exact bicone_rows (c.getD 0 0, c.getD d1 0) g1 hp
    · by_cases b : d1 = 0
      · subst b
        simp only [a, if_true, if_false, Int.reduceLT] at hp
        rw [if_neg (Ne.symm a), if_pos rfl, if_pos (by omega), if_neg (by omega), add_zero, Real.sqrt_sq_eq_abs, add_comm]
        exact bicone_rows (c.getD d0 0, c.getD 0 0) g1 hp
      · simp only [a, b, if_false, Int.reduceNeg, Left.neg_neg_iff, zero_lt_one, if_true] at hp
        rw [if_neg (Ne.symm a), if_neg (Ne.symm b), if_pos (by omega), if_pos (by omega)]
        simp only [centerPoint, sub_self, abs_zero, zero_add]
        exact hdisc _ r h g1 g2 p hp
  · have a := ht (by rw [hS])
    clear ht
    generalize S.dim = d at *
    generalize S.center = c at *
    subst hS
    intro p hp
    simp only [boundary, region, cylinderRegion, if_true, if_false, String.reduceEq, Option.getD_some, Set.mem_setOf_eq]
    rw [distFrom, sum_cut2 _ h0 h1 h01]
    simp only [plot2, String.reduceEq, if_true, if_false, or_true, false_or, and_true, Option.getD_some, a] at hp
    have hz : cut2 (CoordinateShape.centerPoint ⟨d, "cylinder", c, some r, some h, some t, none, none⟩) d0 d1 p 0 =
        if 0 = d0 then p.1 else if 0 = d1 then p.2 else c.getD 0 0 := rfl
    rw [hz, if_neg (Ne.symm a), if_pos (by omega : 1 ≤ d0)]
    have hle : ∀ q : ℝ, q = r ∨ (0 < h ∧ q = h * r) → h * r ≤ q ∧ q ≤ r := by
      rintro q (rfl | ⟨_, rfl⟩)
      · exact ⟨by nlinarith, le_rfl⟩
      · exact ⟨le_rfl, by nlinarith⟩
    by_cases b : d1 = 0
    · subst b
      simp only [if_true, Int.reduceLT, if_false, one_ne_zero] at hp
      rw [if_pos rfl, if_neg (by omega), add_zero, Real.sqrt_sq_eq_abs]
      obtain ⟨q1, q2⟩ := cylinder_rows (c.getD d0 0, c.getD 0 0) g1 g4 g2 hp
      exact ⟨⟨q1.le, hle _ q2⟩, Or.inl q1⟩
    · simp only [b, if_false, Int.reduceNeg, Left.neg_neg_iff, zero_lt_one, if_true] at hp
      rw [if_neg (Ne.symm b), if_pos (by omega)]
      simp only [centerPoint, sub_self, abs_zero]
      have q2 := hdisc _ r h g1 g2 p hp
      exact ⟨⟨by linarith, hle _ q2⟩, Or.inr q2⟩
  · generalize S.dim = d at *
    generalize S.center = c at *
    subst hS
    intro p hp
    simp only [plot2, if_true, Option.getD_some] at hp
    simp only [boundary, region, if_true, if_false, String.reduceEq, Option.getD_some, Set.mem_setOf_eq]
    exact rect_cut (c := fun i => c.getD i 0) (fun _ => a) (fun _ _ => g1.le) h01 h0 h1 hp
  · generalize S.dim = d at *
    generalize S.center = c at *
    subst hS
    intro p hp
    simp only [plot2, String.reduceEq, or_self, and_false, if_false, Option.getD_some] at hp
    simp only [boundary, region, if_true, if_false, String.reduceEq, Option.getD_some, Set.mem_setOf_eq]
    exact rect_cut (c := fun i => c.getD i 0) (fun i => as.getD i 0) (fun i hi => (g2 _ (getD_mem_real as (by omega))).le) h01 h0 h1 hp

/-- **C70, refuted.** For the default bicone in three dimensions (centre at the origin, radius 1), `plot([0, 1, 2])` - time on the first axis - returns surface points that are not even in
the bicone: for example `(-1, 2, 0)`. -/
theorem C70_bicone_refuted : ∃ S, CoordinateShape.init 3 "bicone" {} = .ok S ∧
    ∃ P ∈ S.plot3 0 1 2, ∃ p ∈ P.points, cut3 S.centerPoint 0 1 2 p ∉ S.boundary := by
  refine ⟨⟨3, "bicone", [0, 0, 0], some 1, some 0, none, none, none⟩, ?_, openConeSurface (1, 0, 0) 1 (-1) 0 (-1), ?_, (-1, 2, 0), ⟨1, by simp [openConeSurface], 0, by simp [openConeSurface, samplingRows], ?_⟩, ?_⟩
  · unfold CoordinateShape.init
    simp only [String.reduceEq, if_true, if_false, or_true]
    norm_num [rangeFails, test]
    exact ⟨rfl, rfl⟩
  · simp [plot3, test, setAxis]
  · simp [openConeSurface, rotateAxis, linspace_zero]; norm_num
  · simp only [boundary, String.reduceEq, if_true, if_false, Option.getD_some, Set.mem_setOf_eq, lt_irrefl, false_and, or_false]
    rw [distFrom, sum_cut3 _ (by norm_num) (by norm_num) (by norm_num) (by norm_num) (by norm_num) (by norm_num)]
    simp [cut3, centerPoint]

/-- **C70, refuted.** For a cylinder with centre `(0, 3)` and radius 1, `plot([0, 1])` - time on the first axis - draws a rectangle about the point `(3, 0)`. -/
theorem C70_cylinder_refuted (junk : ℕ → Option (ℝ × ℝ)) : ∃ S, CoordinateShape.init 2 "cylinder" { center := some [0, 3] } = .ok S ∧
    ∃ p ∈ (S.plot2 junk 0 1).outline, cut2 S.centerPoint 0 1 p ∉ S.boundary := by
  refine ⟨⟨2, "cylinder", [0, 3], some 1, some 0, some 2, none, none⟩, ?_, (2, -1), ?_, ?_⟩
  · unfold CoordinateShape.init
    simp only [String.reduceEq, if_true, if_false, or_true]
    norm_num [rangeFails, test]
    rw [if_pos (by rfl)]
    rfl
  · simp only [plot2, String.reduceEq, if_true, if_false, lt_irrefl, false_and, or_self, Option.getD_some, Patch2.outline, Set.mem_setOf_eq, cylinderCutEdge, test,
      decide_true, rectangleEdge]
    norm_num
  · simp only [boundary, region, cylinderRegion, String.reduceEq, if_true, if_false, Option.getD_some, Set.mem_setOf_eq]
    intro h
    have := h.1.1
    simp [cut2, centerPoint] at this

end Causets
