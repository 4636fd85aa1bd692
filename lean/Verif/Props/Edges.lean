import Verif.Props.Limits

/-! # C55 — edge polygons (shapes.py) -/

namespace Causets

/-! ## Specification -/

/-- **Specification.** Twice the oriented area of the triangle with the corners `c`, `p`, `q` (positive: counterclockwise). -/
def turn (c p q : ℝ × ℝ) : ℝ := (p.1 - c.1) * (q.2 - c.2) - (p.2 - c.2) * (q.1 - c.1)

/-- **Specification.** `rows` is a closed polygon of `m + 1` rows (the last row repeats the first one), all on the given curve, such that each step
sweeps out twice the oriented area `a` as seen from `c`. -/
def IsRing (curve : Set (ℝ × ℝ)) (m : ℕ) (c : ℝ × ℝ) (a : ℝ) (rows : List (Option (ℝ × ℝ))) : Prop :=
  rows.length = m + 1 ∧ rows[0]? = rows[m]? ∧ (∀ k ≤ m, ∃ p ∈ curve, rows[k]? = some (some p)) ∧
  ∀ k < m, ∀ p q, rows[k]? = some (some p) → rows[k + 1]? = some (some q) → turn c p q = a

/-- **Specification.** The curves. -/
def ellipseCurve (c r : ℝ × ℝ) : Set (ℝ × ℝ) := {p | ((p.1 - c.1) / r.1) ^ 2 + ((p.2 - c.2) / r.2) ^ 2 = 1}
def circleCurve (c : ℝ × ℝ) (r : ℝ) : Set (ℝ × ℝ) := {p | (p.1 - c.1) ^ 2 + (p.2 - c.2) ^ 2 = r ^ 2}
def diamondCurve (c : ℝ × ℝ) (r : ℝ) : Set (ℝ × ℝ) := {p | |p.1 - c.1| + |p.2 - c.2| = r}
def rectangleCurve (left bottom width height : ℝ) : Set (ℝ × ℝ) :=
  {p | left ≤ p.1 ∧ p.1 ≤ left + width ∧ bottom ≤ p.2 ∧ p.2 ≤ bottom + height ∧
    (p.1 = left ∨ p.1 = left + width ∨ p.2 = bottom ∨ p.2 = bottom + height)}

/-- **Specification.** The number of sides: `samplingsize`, or the default 128. -/
def sides (samplingsize : ℤ) : ℕ := if samplingsize ≤ 0 then 128 else samplingsize.toNat

/-! ## Proofs -/

theorem samplingRows_eq (m : ℤ) : samplingRows m = sides m + 1 := rfl
theorem sides_pos (m : ℤ) : 0 < sides m := by unfold sides; split_ifs <;> omega

theorem linspace_step (m k : ℕ) (h : 0 < m) : linspace2pi (m + 1) (k + 1) = linspace2pi (m + 1) k + 2 * Real.pi / m := by
  unfold linspace2pi
  have : (m : ℝ) ≠ 0 := by positivity
  push_cast
  rw [add_sub_cancel_right]; ring

theorem linspace_last (m : ℕ) (h : 0 < m) : linspace2pi (m + 1) m = 2 * Real.pi := by
  unfold linspace2pi
  have : (m : ℝ) ≠ 0 := by positivity
  push_cast
  rw [add_sub_cancel_right]; field_simp

theorem linspace_zero (n : ℕ) : linspace2pi n 0 = 0 := by simp [linspace2pi]

/-- a ring on an ellipse; `s = 1` counterclockwise, `s = -1` clockwise -/
theorem ring_ellipse (c : ℝ × ℝ) {a b : ℝ} (ha : a ≠ 0) (hb : b ≠ 0) (s : ℝ) (hs : s = 1 ∨ s = -1) (m : ℕ) (hm : 0 < m) :
    IsRing (ellipseCurve c (a, b)) m c (s * (a * b * Real.sin (2 * Real.pi / m)))
      ((List.range (m + 1)).map (fun k => some (c.1 + a * Real.cos (s * linspace2pi (m + 1) k), c.2 + b * Real.sin (s * linspace2pi (m + 1) k)))) := by
  have hget : ∀ k ≤ m, ((List.range (m + 1)).map (fun k => some (c.1 + a * Real.cos (s * linspace2pi (m + 1) k),
      c.2 + b * Real.sin (s * linspace2pi (m + 1) k))))[k]? = some (some (c.1 + a * Real.cos (s * linspace2pi (m + 1) k),
      c.2 + b * Real.sin (s * linspace2pi (m + 1) k))) := by
    intro k hk
    rw [List.getElem?_map, List.getElem?_range (by omega)]; rfl
  refine ⟨by simp, ?_, fun k hk => ⟨_, ?_, hget k hk⟩, fun k hk p q hp hq => ?_⟩
  · rw [hget 0 (by omega), hget m le_rfl, linspace_zero, linspace_last m hm]
    rcases hs with rfl | rfl <;> simp
  · simp only [ellipseCurve, Set.mem_setOf_eq, add_sub_cancel_left]
    rw [mul_div_cancel_left₀ _ ha, mul_div_cancel_left₀ _ hb, Real.cos_sq_add_sin_sq]
  · rw [hget k hk.le] at hp
    rw [hget (k + 1) hk] at hq
    simp only [Option.some.injEq] at hp hq
    rw [← hp, ← hq, linspace_step m k hm]
    simp only [turn, add_sub_cancel_left]
    generalize linspace2pi (m + 1) k = x
    generalize 2 * Real.pi / m = y
    have e : Real.sin y = Real.sin (x + y) * Real.cos x - Real.cos (x + y) * Real.sin x := by
      rw [← Real.sin_sub]; congr 1; ring
    rcases hs with rfl | rfl
    · simp only [one_mul]; rw [e]; ring
    · simp only [neg_one_mul, Real.cos_neg, Real.sin_neg]; rw [e]; ring

/-- **C55, ellipse.** For all radii that are not 0: a solid ellipse is one counterclockwise ring of `samplingsize + 1` rows; a hollow one has
`2 * samplingsize + 3` rows: the outer ring, a row of NaN and a clockwise inner ring with `hollow` times the radii. -/
theorem C55_ellipse (junk : ℕ → Option (ℝ × ℝ)) (c r : ℝ × ℝ) (hollow : ℝ) (m : ℤ) (h1 : r.1 ≠ 0) (h2 : r.2 ≠ 0) :
    (hollow = 0 → IsRing (ellipseCurve c r) (sides m) c (r.1 * r.2 * Real.sin (2 * Real.pi / sides m)) (ellipseEdge junk c r hollow m)) ∧
    (0 < hollow → (ellipseEdge junk c r hollow m).length = 2 * sides m + 3 ∧ ∃ outer inner, ellipseEdge junk c r hollow m = outer ++ [none] ++ inner ∧
      IsRing (ellipseCurve c r) (sides m) c (r.1 * r.2 * Real.sin (2 * Real.pi / sides m)) outer ∧
      IsRing (ellipseCurve c (hollow * r.1, hollow * r.2)) (sides m) c (-(hollow ^ 2 * r.1 * r.2 * Real.sin (2 * Real.pi / sides m))) inner) := by
  have ho := ring_ellipse c h1 h2 1 (Or.inl rfl) (sides m) (sides_pos m)
  simp only [one_mul] at ho
  constructor
  · intro h
    simpa only [ellipseEdge, samplingRows_eq, h, test, decide_true, if_true] using ho
  · intro h
    have hi := ring_ellipse c (mul_ne_zero h.ne' h1) (mul_ne_zero h.ne' h2) (-1) (Or.inr rfl) (sides m) (sides_pos m)
    simp only [neg_one_mul] at hi
    simp only [ellipseEdge, samplingRows_eq, h, h.ne', test, decide_true, decide_false, if_true, Bool.false_eq_true, if_false, gt_iff_lt]
    refine ⟨by simp; omega, _, _, rfl, ho, ?_⟩
    convert hi using 1
    ring

theorem circle_eq_ellipse (junk : ℕ → Option (ℝ × ℝ)) (c : ℝ × ℝ) (r hollow : ℝ) (m : ℤ) :
    circleEdge junk c r hollow m = ellipseEdge junk c (r, r) hollow m := rfl

theorem circleCurve_eq (c : ℝ × ℝ) {r : ℝ} (hr : r ≠ 0) : circleCurve c r = ellipseCurve c (r, r) := by
  ext p
  simp only [circleCurve, ellipseCurve, Set.mem_setOf_eq, div_pow, ← add_div]
  rw [div_eq_one_iff_eq (pow_ne_zero 2 hr)]

/-- **C55, circle.** As `C55_ellipse`, for `CircleEdge`. -/
theorem C55_circle (junk : ℕ → Option (ℝ × ℝ)) (c : ℝ × ℝ) (r hollow : ℝ) (m : ℤ) (hr : r ≠ 0) :
    (hollow = 0 → IsRing (circleCurve c r) (sides m) c (r ^ 2 * Real.sin (2 * Real.pi / sides m)) (circleEdge junk c r hollow m)) ∧
    (0 < hollow → (circleEdge junk c r hollow m).length = 2 * sides m + 3 ∧ ∃ outer inner, circleEdge junk c r hollow m = outer ++ [none] ++ inner ∧
      IsRing (circleCurve c r) (sides m) c (r ^ 2 * Real.sin (2 * Real.pi / sides m)) outer ∧
      IsRing (circleCurve c (hollow * r)) (sides m) c (-((hollow * r) ^ 2 * Real.sin (2 * Real.pi / sides m))) inner) := by
  have h := C55_ellipse junk c (r, r) hollow m hr hr
  rw [circle_eq_ellipse, circleCurve_eq c hr]
  have e1 : r ^ 2 = r * r := by ring
  have e2 : (hollow * r) ^ 2 = hollow ^ 2 * r * r := by ring
  rw [e1, e2]
  refine ⟨h.1, fun hh => ?_⟩
  rw [circleCurve_eq c (mul_ne_zero hh.ne' hr)]
  exact h.2 hh

/-- A negative hollow fraction is not rejected by `CircleEdge`: the last `samplingsize + 2` rows are then whatever was in memory. -/
theorem C55_negative_hollow_refuted (junk : ℕ → Option (ℝ × ℝ)) (c : ℝ × ℝ) (r hollow : ℝ) (m : ℤ) (h : hollow < 0) :
    ∃ outer, circleEdge junk c r hollow m = outer ++ (List.range (sides m + 2)).map junk := by
  simp only [circleEdge, samplingRows_eq, test, h.ne, gt_iff_lt, h.not_gt, decide_false, Bool.false_eq_true, if_false]
  exact ⟨_, rfl⟩

theorem isRing_four {curve : Set (ℝ × ℝ)} {c : ℝ × ℝ} {a : ℝ} (p0 p1 p2 p3 : ℝ × ℝ) (h : ∀ p ∈ [p0, p1, p2, p3], p ∈ curve)
    (h0 : turn c p0 p1 = a) (h1 : turn c p1 p2 = a) (h2 : turn c p2 p3 = a) (h3 : turn c p3 p0 = a) :
    IsRing curve 4 c a [some p0, some p1, some p2, some p3, some p0] := by
  refine ⟨rfl, rfl, fun k hk => ?_, fun k hk p q hp hq => ?_⟩
  · rcases (by omega : k = 0 ∨ k = 1 ∨ k = 2 ∨ k = 3 ∨ k = 4) with rfl | rfl | rfl | rfl | rfl
    · exact ⟨p0, h p0 (by simp), rfl⟩
    · exact ⟨p1, h p1 (by simp), rfl⟩
    · exact ⟨p2, h p2 (by simp), rfl⟩
    · exact ⟨p3, h p3 (by simp), rfl⟩
    · exact ⟨p0, h p0 (by simp), rfl⟩
  · rcases (by omega : k = 0 ∨ k = 1 ∨ k = 2 ∨ k = 3) with rfl | rfl | rfl | rfl <;>
      · simp at hp hq
        subst hp hq
        assumption

/-- **C55, rectangle.** `RectangleEdge` with a non-negative width and height is a counterclockwise ring of 5 rows on the boundary of the rectangle, and contains all of
its corners. -/
theorem C55_rectangle (l b w h : ℝ) (hw : 0 ≤ w) (hh : 0 ≤ h) :
    IsRing (rectangleCurve l b w h) 4 (l + w / 2, b + h / 2) (w * h / 2) (rectangleEdge l b w h) ∧
    ∀ x ∈ [l, l + w], ∀ y ∈ [b, b + h], some (x, y) ∈ rectangleEdge l b w h := by
  refine ⟨isRing_four _ _ _ _ ?_ ?_ ?_ ?_ ?_, ?_⟩
  · simp [rectangleCurve, hw, hh]
  all_goals first
    | (simp only [turn]; ring)
    | simp [rectangleEdge]

/-- **C55, bicone.** `BiconeEdge` is a counterclockwise ring of 5 rows on the edge of the double cone; if it is hollow, 11 rows: additionally a row of NaN and a clockwise
ring on the inner edge. -/
theorem C55_bicone (c : ℝ × ℝ) (r hollow : ℝ) (hr : 0 ≤ r) :
    (hollow ≤ 0 → IsRing (diamondCurve c r) 4 c (r ^ 2) (biconeEdge c r hollow)) ∧
    (0 < hollow → (biconeEdge c r hollow).length = 11 ∧ ∃ outer inner, biconeEdge c r hollow = outer ++ [none] ++ inner ∧
      IsRing (diamondCurve c r) 4 c (r ^ 2) outer ∧ IsRing (diamondCurve c (hollow * r)) 4 c (-(hollow * r) ^ 2) inner) := by
  have ho : IsRing (diamondCurve c r) 4 c (r ^ 2) [some (c.1, c.2 + r), some (c.1 - r, c.2), some (c.1, c.2 - r), some (c.1 + r, c.2), some (c.1, c.2 + r)] := by
    refine isRing_four _ _ _ _ ?_ ?_ ?_ ?_ ?_
    · simp [diamondCurve, abs_of_nonneg hr]
    all_goals simp only [turn]; ring
  constructor
  · intro h
    simpa only [biconeEdge, test, gt_iff_lt, not_lt.2 h, decide_false, Bool.false_eq_true, if_false] using ho
  · intro h
    simp only [biconeEdge, test, gt_iff_lt, h, decide_true, if_true]
    refine ⟨by simp, _, _, rfl, ho, ?_⟩
    have hr' : 0 ≤ hollow * r := by positivity
    refine isRing_four _ _ _ _ ?_ ?_ ?_ ?_ ?_
    · simp [diamondCurve, abs_of_nonneg hr', -abs_mul]
    all_goals simp only [turn]; ring

/-- **C55, cylinder cut.** `CylinderCutEdge` is the rectangle about the centre with the width `2 * radius`; if it is hollow (`0 < hollow ≤ 1`), 11 rows: the two
counterclockwise rectangles on the left and on the right of the hollow part, separated by a row of NaN. -/
theorem C55_cylinderCut (c : ℝ × ℝ) (r t hollow : ℝ) (hr : 0 ≤ r) (ht : 0 ≤ t) :
    (hollow = 0 → IsRing (rectangleCurve (c.1 - r) (c.2 - t / 2) (2 * r) t) 4 c (r * t) (cylinderCutEdge c r t hollow)) ∧
    (0 < hollow → hollow ≤ 1 → (cylinderCutEdge c r t hollow).length = 11 ∧ ∃ left right, cylinderCutEdge c r t hollow = left ++ [none] ++ right ∧
      IsRing (rectangleCurve (c.1 - r) (c.2 - t / 2) ((1 - hollow) * r) t) 4 (c.1 - (1 + hollow) * r / 2, c.2) ((1 - hollow) * r * t / 2) left ∧
      IsRing (rectangleCurve (c.1 + hollow * r) (c.2 - t / 2) ((1 - hollow) * r) t) 4 (c.1 + (1 + hollow) * r / 2, c.2) ((1 - hollow) * r * t / 2) right) := by
  constructor
  · intro h
    have := (C55_rectangle (c.1 - r) (c.2 - t / 2) (2 * r) t (by linarith) ht).1
    simp only [cylinderCutEdge, test, h, decide_true, if_true]
    convert this using 1
    · ext <;> simp
    · ring
  · intro h h1
    have hw : 0 ≤ (1 - hollow) * r := mul_nonneg (by linarith) hr
    simp only [cylinderCutEdge, test, h.ne', decide_false, Bool.false_eq_true, if_false]
    refine ⟨by simp [rectangleEdge], _, _, rfl, ?_, ?_⟩
    · convert (C55_rectangle (c.1 - r) (c.2 - t / 2) ((1 - hollow) * r) t hw ht).1 using 1
      ext <;> simp; ring
    · convert (C55_rectangle (c.1 + hollow * r) (c.2 - t / 2) ((1 - hollow) * r) t hw ht).1 using 1
      ext <;> simp; ring

/-- C55: a hollow ellipse with three sides -/
example : (ellipseEdge (fun _ => none) (1, 2) (3, 4) (1 / 2) 3).length = 9 :=
  ((C55_ellipse _ (1, 2) (3, 4) (1 / 2) 3 (by norm_num) (by norm_num)).2 (by norm_num)).1

end Causets
