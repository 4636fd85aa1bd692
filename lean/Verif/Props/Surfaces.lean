import Verif.Props.Edges

/-! # C69 — surfaces in three dimensions (shapes.py) -/

namespace Causets

/-! ## Specification -/

/-- **Specification.** The coordinate along an axis. -/
def along (a : ℤ) (p : ℝ × ℝ × ℝ) : ℝ := if a = 0 then p.1 else if a = 1 then p.2.1 else p.2.2

/-- **Specification.** The square of the distance of `p` from the line through `c` parallel to an axis. -/
def axisDistSq (a : ℤ) (c p : ℝ × ℝ × ℝ) : ℝ :=
  if a = 0 then (p.2.1 - c.2.1) ^ 2 + (p.2.2 - c.2.2) ^ 2 else if a = 1 then (p.1 - c.1) ^ 2 + (p.2.2 - c.2.2) ^ 2
  else (p.1 - c.1) ^ 2 + (p.2.1 - c.2.1) ^ 2

def sphere3 (c : ℝ × ℝ × ℝ) (r : ℝ) : Set (ℝ × ℝ × ℝ) := {p | (p.1 - c.1) ^ 2 + (p.2.1 - c.2.1) ^ 2 + (p.2.2 - c.2.2) ^ 2 = r ^ 2}

/-- **Specification.** The two rims of the (hollow) cylinder and the discs bounded by them belong to its boundary; the surface consists of the points with
maximal distance from the middle plane, or on the outer or inner mantle. -/
def cylinderBoundary (a : ℤ) (c : ℝ × ℝ × ℝ) (r t h : ℝ) : Set (ℝ × ℝ × ℝ) :=
  {p | |along a p - along a c| ≤ t / 2 ∧ (h * r) ^ 2 ≤ axisDistSq a c p ∧ axisDistSq a c p ≤ r ^ 2 ∧
    (|along a p - along a c| = t / 2 ∨ axisDistSq a c p = r ^ 2 ∨ (0 < h ∧ axisDistSq a c p = (h * r) ^ 2))}

/-- **Specification.** The mantle of the cone with the given tip that opens along the axis up to the given (signed) height. -/
def coneMantle (a : ℤ) (tip : ℝ × ℝ × ℝ) (r height : ℝ) : Set (ℝ × ℝ × ℝ) :=
  {p | ∃ s, 0 ≤ s ∧ s ≤ 1 ∧ along a p = along a tip + s * height ∧ axisDistSq a tip p = (s * r) ^ 2}

/-- **Specification.** The four corners of the face of a cuboid with normal axis `a`, on the side `s = 1` or `s = -1`. -/
def faceCorners (c e : ℝ × ℝ × ℝ) (a : ℤ) (s : ℝ) : Set (ℝ × ℝ × ℝ) :=
  {p | along a p = along a c + s * along a e / 2 ∧ ∀ b ∈ [(0 : ℤ), 1, 2], along b p = along b c - along b e / 2 ∨ along b p = along b c + along b e / 2}

/-- the points of a patch -/
def Patch.points (P : Patch) : Set (ℝ × ℝ × ℝ) := {p | ∃ i < P.rows, ∃ j < P.cols, p = P.pos i j}

/-! ## Theorems -/

/-- **C69, ball.** All points of `BallSurface` lie on the sphere; the patch has `samplingsize + 1` rows and closes; for `samplingsize ≥ 2` the columns range from
pole to pole. -/
theorem C69_ball (c : ℝ × ℝ × ℝ) (r : ℝ) (m : ℤ) :
    (ballSurface c r m).points ⊆ sphere3 c r ∧ (ballSurface c r m).rows = sides m + 1 ∧
    (∀ j, (ballSurface c r m).pos 0 j = (ballSurface c r m).pos (sides m) j) ∧
    (2 ≤ sides m → 2 ≤ (ballSurface c r m).cols ∧ ∀ i, (ballSurface c r m).pos i 0 = (c.1, c.2.1, c.2.2 + r) ∧
      (ballSurface c r m).pos i ((ballSurface c r m).cols - 1) = (c.1, c.2.1, c.2.2 - r)) := by
  refine ⟨?_, rfl, ?_, ?_⟩
  · rintro p ⟨i, _, j, _, rfl⟩
    simp only [ballSurface, sphere3, Set.mem_setOf_eq, add_sub_cancel_right, one_mul]
    generalize linspace2pi _ i = x
    generalize linspacePi _ j = y
    have h1 := Real.sin_sq_add_cos_sq x
    have h2 := Real.sin_sq_add_cos_sq y
    have : (Real.cos x * Real.sin y * r) ^ 2 + (Real.sin x * Real.sin y * r) ^ 2 + (Real.cos y * r) ^ 2 =
      r ^ 2 * ((Real.sin x ^ 2 + Real.cos x ^ 2) * Real.sin y ^ 2 + Real.cos y ^ 2) := by ring
    rw [this, h1, one_mul, h2, mul_one]
  · intro j
    simp only [ballSurface, samplingRows_eq, linspace_zero, linspace_last _ (sides_pos m), Real.cos_zero, Real.sin_zero, Real.cos_two_pi, Real.sin_two_pi]
  · intro hm
    have hc : 2 ≤ roundHalf (sides m + 1) := by
      unfold roundHalf
      split_ifs <;> omega
    refine ⟨hc, fun i => ⟨?_, ?_⟩⟩
    · have h0 : ∀ n, linspacePi n 0 = 0 := fun n => by simp [linspacePi]
      simp only [ballSurface, h0, Real.sin_zero, Real.cos_zero, mul_zero, zero_mul, zero_add, one_mul, mul_one]
      rw [add_comm r]
    · have hl : linspacePi (roundHalf (sides m + 1)) (roundHalf (sides m + 1) - 1) = Real.pi := by
        unfold linspacePi
        rw [if_neg (by omega), Nat.cast_sub (by omega), Nat.cast_one]
        have : (roundHalf (sides m + 1) : ℝ) - 1 ≠ 0 := by
          have : (2 : ℝ) ≤ roundHalf (sides m + 1) := by exact_mod_cast hc
          linarith
        field_simp
      simp only [ballSurface, samplingRows_eq, hl, Real.sin_pi, Real.cos_pi, mul_zero, zero_mul, zero_add]
      rw [show 1 * -1 * r + c.2.2 = c.2.2 - r by ring]

theorem patch44 (f : ℕ → ℕ → ℝ × ℝ × ℝ) : (⟨4, 4, f⟩ : Patch).points = {p | ∃ i < 4, ∃ j < 4, p = f i j} := rfl

theorem exists_lt_four {P : ℕ → Prop} : (∃ i < 4, P i) ↔ P 0 ∨ P 1 ∨ P 2 ∨ P 3 := by
  constructor
  · rintro ⟨i, hi, h⟩
    rcases (by omega : i = 0 ∨ i = 1 ∨ i = 2 ∨ i = 3) with rfl | rfl | rfl | rfl <;> simp [h]
  · rintro (h | h | h | h)
    exacts [⟨0, by omega, h⟩, ⟨1, by omega, h⟩, ⟨2, by omega, h⟩, ⟨3, by omega, h⟩]

theorem exists_a (x e s : ℝ) : (∃ k < 4, x = ([0, 0, e, e] : List ℝ).getD k 0 + s) ↔ x = 0 + s ∨ x = e + s := by
  rw [exists_lt_four]; simp only [List.getD_cons_zero, List.getD_cons_succ]; tauto
theorem exists_b (x e s : ℝ) : (∃ k < 4, x = ([0, e, e, 0] : List ℝ).getD k 0 + s) ↔ x = 0 + s ∨ x = e + s := by
  rw [exists_lt_four]; simp only [List.getD_cons_zero, List.getD_cons_succ]; tauto

theorem exists_and2 {A : Prop} {P Q : ℕ → Prop} : (∃ i < 4, ∃ j < 4, A ∧ P j ∧ Q i) ↔ A ∧ (∃ j < 4, P j) ∧ (∃ i < 4, Q i) := by
  constructor
  · rintro ⟨i, hi, j, hj, h1, h2, h3⟩; exact ⟨h1, ⟨j, hj, h2⟩, ⟨i, hi, h3⟩⟩
  · rintro ⟨h1, ⟨j, hj, h2⟩, ⟨i, hi, h3⟩⟩; exact ⟨i, hi, j, hj, h1, h2, h3⟩

/-- **C69, cuboid.** `CuboidSurface` returns six patches; their points are exactly the corners of the six faces, one patch per face. -/
theorem C69_cuboid (c e : ℝ × ℝ × ℝ) :
    (cuboidSurface c e).map Patch.points =
      [faceCorners c e 0 (-1), faceCorners c e 1 (-1), faceCorners c e 2 (-1), faceCorners c e 0 1, faceCorners c e 1 1, faceCorners c e 2 1] := by
  obtain ⟨c0, c1, c2⟩ := c
  obtain ⟨e0, e1, e2⟩ := e
  simp only [cuboidSurface, List.map_cons, List.map_nil, patch44, List.cons.injEq, and_true, faceCorners, along]
  have key : ∀ (x c e : ℝ), (x = c - e / 2 ↔ x = 0 + (c - e / 2)) ∧ (x = c + e / 2 ↔ x = e + (c - e / 2)) := by
    intro x c e
    constructor <;> constructor <;> intro h <;> linarith
  have hm : ∀ (c e : ℝ), c + -1 * e / 2 = c - e / 2 := fun c e => by ring
  have hp : ∀ (c e : ℝ), c + 1 * e / 2 = c + e / 2 := fun c e => by ring
  have rot1 : ∀ (A : Prop) (P Q : ℕ → Prop), (∃ i < 4, ∃ j < 4, P i ∧ A ∧ Q j) ↔ A ∧ (∃ j < 4, Q j) ∧ (∃ i < 4, P i) := fun A P Q => by
    rw [← exists_and2]
    exact exists_congr fun i => and_congr_right fun _ => exists_congr fun j => and_congr_right fun _ => by tauto
  have rot2 : ∀ (A : Prop) (P Q : ℕ → Prop), (∃ i < 4, ∃ j < 4, P j ∧ Q i ∧ A) ↔ A ∧ (∃ j < 4, P j) ∧ (∃ i < 4, Q i) := fun A P Q => by
    rw [← exists_and2]
    exact exists_congr fun i => and_congr_right fun _ => exists_congr fun j => and_congr_right fun _ => by tauto
  refine ⟨?_, ?_, ?_, ?_, ?_, ?_⟩ <;>
  · ext ⟨x, y, z⟩
    simp only [Set.mem_setOf_eq, Prod.mk.injEq, List.forall_mem_cons, List.not_mem_nil, false_imp_iff, implies_true, and_true,
      if_true, one_ne_zero, if_false, OfNat.ofNat_ne_zero, OfNat.ofNat_ne_one, hm, hp, (key _ _ _).1, (key _ _ _).2]
    first
      | rw [exists_and2]
      | rw [rot1]
      | rw [rot2]
    simp only [exists_a, exists_b]
    tauto

/-- `CubeSurface` is the cuboid with equal edges. -/
theorem C69_cube (c : ℝ × ℝ × ℝ) (e : ℝ) : cubeSurface c e = cuboidSurface c (e, e, e) := rfl

theorem axis_rotate (z : ℤ) (hz : z = 0 ∨ z = 1 ∨ z = 2) (c p : ℝ × ℝ × ℝ) :
    along z (rotateAxis z p) = p.2.2 ∧ axisDistSq z (rotateAxis z c) (rotateAxis z p) = (p.1 - c.1) ^ 2 + (p.2.1 - c.2.1) ^ 2 := by
  rcases hz with rfl | rfl | rfl
  · simp [along, axisDistSq, rotateAxis]
  · simp [along, axisDistSq, rotateAxis, add_comm]
  · simp [along, axisDistSq, rotateAxis]

theorem rotate_two (p : ℝ × ℝ × ℝ) : rotateAxis 2 p = p := by simp [rotateAxis]

/-- **C69, cylinder (partial).** For each of the three axes all points of `CylinderSurface` lie on the boundary of the (hollow) cylinder about the *rotated* centre; for the axis 2
this is the given centre. -/
theorem C69_cylinder_partial (c : ℝ × ℝ × ℝ) {r t h : ℝ} (ht : 0 ≤ t) (h0 : 0 ≤ h) (h1 : h ≤ 1) (m : ℤ) :
    (∀ z : ℤ, z = 0 ∨ z = 1 ∨ z = 2 → (cylinderSurface c r t h z m).points ⊆ cylinderBoundary z (rotateAxis z c) r t h) ∧
    (cylinderSurface c r t h 2 m).points ⊆ cylinderBoundary 2 c r t h := by
  have main : ∀ z : ℤ, z = 0 ∨ z = 1 ∨ z = 2 → (cylinderSurface c r t h z m).points ⊆ cylinderBoundary z (rotateAxis z c) r t h := by
    rintro z hz p ⟨i, hi, j, hj, rfl⟩
    simp only [cylinderSurface, cylinderBoundary, Set.mem_setOf_eq, (axis_rotate z hz c _).1, (axis_rotate z hz c _).2, add_sub_cancel_right]
    have e : ∀ q x : ℝ, (r * q * Real.cos x) ^ 2 + (r * q * Real.sin x) ^ 2 = (r * q) ^ 2 := by
      intro q x
      have := Real.sin_sq_add_cos_sq x
      linear_combination (r * q) ^ 2 * this
    have habs : |t / 2| = t / 2 := abs_of_nonneg (by linarith)
    have hr2 : (h * r) ^ 2 ≤ r ^ 2 := by
      rw [mul_pow]
      have : h ^ 2 ≤ 1 := by nlinarith
      nlinarith [sq_nonneg r]
    rw [e]
    by_cases hh : h = 0
    · simp only [cylinderSurface, test, hh, decide_true, if_true] at hi ⊢
      simp only [List.length_cons, List.length_nil] at hi
      rcases (by omega : i = 0 ∨ i = 1 ∨ i = 2 ∨ i = 3) with rfl | rfl | rfl | rfl <;>
        simp [habs, sq_nonneg]
    · simp only [cylinderSurface, test, hh, decide_false, Bool.false_eq_true, if_false] at hi ⊢
      simp only [List.length_cons, List.length_nil] at hi
      have hc : r * h = h * r := mul_comm _ _
      rcases (by omega : i = 0 ∨ i = 1 ∨ i = 2 ∨ i = 3 ∨ i = 4) with rfl | rfl | rfl | rfl | rfl <;>
        simp [habs, hr2, hc]
  refine ⟨main, ?_⟩
  have := main 2 (by simp)
  rwa [rotate_two] at this

/-- **C69, refuted for the axes 0 and 1.** Whenever the first and the last coordinate of the centre differ, `CylinderSurface` along the first axis has points that are not on the
boundary of the cylinder about the given centre. -/
theorem C69_cylinder_refuted (c : ℝ × ℝ × ℝ) (hc : c.1 ≠ c.2.2) (r t h : ℝ) (m : ℤ) :
    ¬ (cylinderSurface c r t h 0 m).points ⊆ cylinderBoundary 0 c r t h := by
  intro hsub
  have hm : 0 < samplingRows m := by rw [samplingRows_eq]; omega
  have hr0 : 0 < (cylinderSurface c r t h 0 m).rows ∧ 2 < (cylinderSurface c r t h 0 m).rows := by
    by_cases hh : h = 0 <;> simp [cylinderSurface, test, hh]
  have h1 := (hsub ⟨0, hr0.1, 0, hm, rfl⟩).1
  have h2 := (hsub ⟨2, hr0.2, 0, hm, rfl⟩).1
  have e1 : along 0 ((cylinderSurface c r t h 0 m).pos 0 0) = -(t / 2) + c.2.2 := by
    by_cases hh : h = 0 <;> simp [cylinderSurface, test, hh, along, rotateAxis]
  have e2 : along 0 ((cylinderSurface c r t h 0 m).pos 2 0) = t / 2 + c.2.2 := by
    by_cases hh : h = 0 <;> simp [cylinderSurface, test, hh, along, rotateAxis]
  rw [e1] at h1
  rw [e2] at h2
  simp only [along, if_true] at h1 h2
  apply hc
  have := abs_le.1 h1
  have := abs_le.1 h2
  linarith [this.1, this.2, (abs_le.1 h1).1]

/-- **C69, cone (partial).** As `C69_cylinder_partial`, for `OpenConeSurface` and its tip. -/
theorem C69_cone_partial (tip : ℝ × ℝ × ℝ) (r t : ℝ) (m : ℤ) :
    (∀ z : ℤ, z = 0 ∨ z = 1 ∨ z = 2 → (openConeSurface tip r t z m).points ⊆ coneMantle z (rotateAxis z tip) r t) ∧
    (openConeSurface tip r t 2 m).points ⊆ coneMantle 2 tip r t := by
  have main : ∀ z : ℤ, z = 0 ∨ z = 1 ∨ z = 2 → (openConeSurface tip r t z m).points ⊆ coneMantle z (rotateAxis z tip) r t := by
    rintro z hz p ⟨i, hi, j, hj, rfl⟩
    simp only [openConeSurface] at hi
    have e : ∀ q x : ℝ, (r * q * Real.cos x) ^ 2 + (r * q * Real.sin x) ^ 2 = (q * r) ^ 2 := by
      intro q x
      have := Real.sin_sq_add_cos_sq x
      linear_combination (r * q) ^ 2 * this
    refine ⟨([0, 1] : List ℝ).getD i 0, ?_, ?_, ?_, ?_⟩
    · rcases (by omega : i = 0 ∨ i = 1) with rfl | rfl <;> simp
    · rcases (by omega : i = 0 ∨ i = 1) with rfl | rfl <;> simp
    · simp only [openConeSurface, (axis_rotate z hz tip _).1]; ring
    · simp only [openConeSurface, (axis_rotate z hz tip _).2, add_sub_cancel_right, e]
  refine ⟨main, ?_⟩
  have := main 2 (by simp)
  rwa [rotate_two] at this

/-- **C69, refuted for the axes 0 and 1.** Even for the cone about the first axis itself with the tip `(-1, 0, 0)`, height 1 and radius 1, the surface is not on the mantle of the cone. -/
theorem C69_cone_refuted (m : ℤ) : ¬ (openConeSurface (-1, 0, 0) 1 1 0 m).points ⊆ coneMantle 0 (-1, 0, 0) 1 1 := by
  intro hsub
  have hm : 0 < samplingRows m := by rw [samplingRows_eq]; omega
  obtain ⟨s, h0, h1, h2, _⟩ := hsub ⟨1, by simp [openConeSurface], 0, hm, rfl⟩
  simp [openConeSurface, rotateAxis, along] at h2
  linarith

/-! ## The surface between the points -/

/-- **Specification.** The point at the fraction `s` of the way from `p` to `q`. -/
def lerp3 (s : ℝ) (p q : ℝ × ℝ × ℝ) : ℝ × ℝ × ℝ := ((1 - s) * p.1 + s * q.1, (1 - s) * p.2.1 + s * q.2.1, (1 - s) * p.2.2 + s * q.2.2)

/-- **Specification.** The surface drawn for a patch: the quadrangles between neighbouring points. -/
def Patch.mesh (P : Patch) : Set (ℝ × ℝ × ℝ) :=
  {x | ∃ i, i + 1 < P.rows ∧ ∃ j, j + 1 < P.cols ∧ ∃ s t : ℝ, 0 ≤ s ∧ s ≤ 1 ∧ 0 ≤ t ∧ t ≤ 1 ∧
    x = lerp3 s (lerp3 t (P.pos i j) (P.pos i (j + 1))) (lerp3 t (P.pos (i + 1) j) (P.pos (i + 1) (j + 1)))}

/-- **Specification.** The line drawn from row to row of a patch in column `j`. -/
def Patch.meridian (P : Patch) (j : ℕ) : Set (ℝ × ℝ × ℝ) := {x | ∃ i, i + 1 < P.rows ∧ ∃ s : ℝ, 0 ≤ s ∧ s ≤ 1 ∧ x = lerp3 s (P.pos i j) (P.pos (i + 1) j)}

/-- **Specification.** The face of a cuboid with normal axis `a` on the side `s`. -/
def face (c e : ℝ × ℝ × ℝ) (a : ℤ) (s : ℝ) : Set (ℝ × ℝ × ℝ) :=
  {p | along a p = along a c + s * along a e / 2 ∧ ∀ b ∈ [(0 : ℤ), 1, 2], |along b p - along b c| ≤ along b e / 2}

theorem range_a (e c : ℝ) (he : 0 ≤ e) (x : ℝ) :
    (∃ k, k + 1 < 4 ∧ ∃ t : ℝ, 0 ≤ t ∧ t ≤ 1 ∧
      x = (1 - t) * (([0, 0, e, e] : List ℝ).getD k 0 + (c - e / 2)) + t * (([0, 0, e, e] : List ℝ).getD (k + 1) 0 + (c - e / 2))) ↔ |x - c| ≤ e / 2 := by
  rw [abs_le]
  constructor
  · rintro ⟨k, hk, t, h0, h1, rfl⟩
    have : t * e ≤ e := mul_le_of_le_one_left he h1
    have : 0 ≤ t * e := by positivity
    rcases (by omega : k = 0 ∨ k = 1 ∨ k = 2) with rfl | rfl | rfl <;> simp <;> constructor <;> linarith
  · rintro ⟨h1, h2⟩
    rcases eq_or_lt_of_le he with he | he
    · exact ⟨0, by omega, 0, le_rfl, zero_le_one, by simp; linarith⟩
    · refine ⟨1, by omega, (x - c + e / 2) / e, div_nonneg (by linarith) he.le, (div_le_one he).2 (by linarith), ?_⟩
      simp
      field_simp
      ring

theorem range_b (e c : ℝ) (he : 0 ≤ e) (x : ℝ) :
    (∃ k, k + 1 < 4 ∧ ∃ t : ℝ, 0 ≤ t ∧ t ≤ 1 ∧
      x = (1 - t) * (([0, e, e, 0] : List ℝ).getD k 0 + (c - e / 2)) + t * (([0, e, e, 0] : List ℝ).getD (k + 1) 0 + (c - e / 2))) ↔ |x - c| ≤ e / 2 := by
  rw [abs_le]
  constructor
  · rintro ⟨k, hk, t, h0, h1, rfl⟩
    have : t * e ≤ e := mul_le_of_le_one_left he h1
    have : 0 ≤ t * e := by positivity
    rcases (by omega : k = 0 ∨ k = 1 ∨ k = 2) with rfl | rfl | rfl <;> simp <;> constructor <;> linarith
  · rintro ⟨h1, h2⟩
    rcases eq_or_lt_of_le he with he | he
    · exact ⟨0, by omega, 0, le_rfl, zero_le_one, by simp; linarith⟩
    · refine ⟨0, by omega, (x - c + e / 2) / e, div_nonneg (by linarith) he.le, (div_le_one he).2 (by linarith), ?_⟩
      simp
      field_simp
      ring

/-- a mesh whose coordinates depend on row and column separately -/
theorem mesh_product (f g : ℕ → ℝ) (k : ℝ) (R : ℝ → ℝ → ℝ → ℝ × ℝ × ℝ)
    (hR : R = (fun a b d => (a, b, d)) ∨ R = (fun a b d => (d, a, b)) ∨ R = (fun a b d => (b, d, a))) (x y z : ℝ) :
    R x y z ∈ Patch.mesh ⟨4, 4, fun i j => R k (f j) (g i)⟩ ↔
      x = k ∧ (∃ j, j + 1 < 4 ∧ ∃ t : ℝ, 0 ≤ t ∧ t ≤ 1 ∧ y = (1 - t) * f j + t * f (j + 1)) ∧
        (∃ i, i + 1 < 4 ∧ ∃ s : ℝ, 0 ≤ s ∧ s ≤ 1 ∧ z = (1 - s) * g i + s * g (i + 1)) := by
  have e : ∀ (t a : ℝ), (1 - t) * a + t * a = a := fun t a => by ring
  constructor
  · rintro ⟨i, hi, j, hj, s, t, h0, h1, h2, h3, h⟩
    rcases hR with rfl | rfl | rfl <;> simp only [lerp3, e, Prod.mk.injEq] at h
    · exact ⟨h.1, ⟨j, hj, t, h2, h3, h.2.1⟩, ⟨i, hi, s, h0, h1, h.2.2⟩⟩
    · exact ⟨h.2.1, ⟨j, hj, t, h2, h3, h.2.2⟩, ⟨i, hi, s, h0, h1, h.1⟩⟩
    · exact ⟨h.2.2, ⟨j, hj, t, h2, h3, h.1⟩, ⟨i, hi, s, h0, h1, h.2.1⟩⟩
  · rintro ⟨rfl, ⟨j, hj, t, h2, h3, rfl⟩, ⟨i, hi, s, h0, h1, rfl⟩⟩
    refine ⟨i, hi, j, hj, s, t, h0, h1, h2, h3, ?_⟩
    rcases hR with rfl | rfl | rfl <;> simp only [lerp3, e]

/-- **C69, cuboid.** The surface between the points of the six patches of `CuboidSurface` is exactly the whole of the six faces. -/
theorem C69_cuboid_mesh (c e : ℝ × ℝ × ℝ) (h0 : 0 ≤ e.1) (h1 : 0 ≤ e.2.1) (h2 : 0 ≤ e.2.2) :
    (cuboidSurface c e).map Patch.mesh = [face c e 0 (-1), face c e 1 (-1), face c e 2 (-1), face c e 0 1, face c e 1 1, face c e 2 1] := by
  obtain ⟨c0, c1, c2⟩ := c
  obtain ⟨e0, e1, e2⟩ := e
  dsimp only at h0 h1 h2
  have lo : ∀ (c e x : ℝ), 0 ≤ e → ((x = 0 + (c - e / 2)) ↔ (x = c + -1 * e / 2 ∧ |x - c| ≤ e / 2)) := by
    intro c e x he
    constructor
    · intro h; exact ⟨by linarith, by rw [h, show 0 + (c - e / 2) - c = -(e / 2) by ring, abs_neg, abs_of_nonneg (by linarith)]⟩
    · rintro ⟨h, -⟩; linarith
  have hi : ∀ (c e x : ℝ), 0 ≤ e → ((x = e + (c - e / 2)) ↔ (x = c + 1 * e / 2 ∧ |x - c| ≤ e / 2)) := by
    intro c e x he
    constructor
    · intro h; exact ⟨by linarith, by rw [h, show e + (c - e / 2) - c = e / 2 by ring, abs_of_nonneg (by linarith)]⟩
    · rintro ⟨h, -⟩; linarith
  simp only [cuboidSurface, List.map_cons, List.map_nil, List.cons.injEq, and_true]
  refine ⟨?_, ?_, ?_, ?_, ?_, ?_⟩ <;> ext ⟨x, y, z⟩ <;>
    simp only [face, along, Set.mem_setOf_eq, List.forall_mem_cons, List.not_mem_nil, false_imp_iff, implies_true, and_true,
      if_true, one_ne_zero, if_false, OfNat.ofNat_ne_zero, OfNat.ofNat_ne_one]
  · rw [mesh_product _ _ _ (fun a b d => (a, b, d)) (by simp) x y z, range_a _ _ h1, range_b _ _ h2, lo _ _ _ h0]; tauto
  · rw [mesh_product _ _ _ (fun a b d => (d, a, b)) (by simp) y z x, range_a _ _ h2, range_b _ _ h0, lo _ _ _ h1]; tauto
  · rw [mesh_product _ _ _ (fun a b d => (b, d, a)) (by simp) z x y, range_a _ _ h0, range_b _ _ h1, lo _ _ _ h2]; tauto
  · rw [mesh_product _ _ _ (fun a b d => (a, b, d)) (by simp) x y z, range_b _ _ h1, range_a _ _ h2, hi _ _ _ h0]; tauto
  · rw [mesh_product _ _ _ (fun a b d => (d, a, b)) (by simp) y z x, range_b _ _ h2, range_a _ _ h0, hi _ _ _ h1]; tauto
  · rw [mesh_product _ _ _ (fun a b d => (b, d, a)) (by simp) z x y, range_b _ _ h0, range_a _ _ h1, hi _ _ _ h2]; tauto

theorem lerp3_rotate (z : ℤ) (s : ℝ) (p q : ℝ × ℝ × ℝ) : lerp3 s (rotateAxis z p) (rotateAxis z q) = rotateAxis z (lerp3 s p q) := by
  unfold rotateAxis
  split_ifs <;> rfl

/-- **C69, cylinder.** At every sampled angle the line drawn from row to row of `CylinderSurface` is exactly the cut of the boundary of the (hollow) cylinder with the half plane at
this angle: bottom, outer mantle, top and, if there is a hole, the inner mantle. -/
theorem C69_cylinder_meridian (c : ℝ × ℝ × ℝ) (r t : ℝ) {h : ℝ} (h0 : 0 ≤ h) (h1 : h < 1) (z m : ℤ) (j : ℕ) :
    (cylinderSurface c r t h z m).meridian j = {x | ∃ ρ ζ : ℝ, h ≤ ρ ∧ ρ ≤ 1 ∧ -1 ≤ ζ ∧ ζ ≤ 1 ∧ (ζ = -1 ∨ ζ = 1 ∨ ρ = 1 ∨ (0 < h ∧ ρ = h)) ∧
      x = rotateAxis z (r * ρ * Real.cos (2 * Real.pi * j / sides m) + c.1, r * ρ * Real.sin (2 * Real.pi * j / sides m) + c.2.1, t / 2 * ζ + c.2.2)} := by
  have ang : linspace2pi (samplingRows m) j = 2 * Real.pi * j / sides m := by
    rw [samplingRows_eq]; unfold linspace2pi; push_cast; ring_nf
  ext x
  simp only [Patch.meridian, cylinderSurface, Set.mem_setOf_eq, lerp3_rotate, ang]
  set C := Real.cos (2 * Real.pi * j / sides m)
  set S := Real.sin (2 * Real.pi * j / sides m)
  have hl : ∀ s a b u v : ℝ, lerp3 s (r * a * C + c.1, r * a * S + c.2.1, t / 2 * u + c.2.2) (r * b * C + c.1, r * b * S + c.2.1, t / 2 * v + c.2.2) =
      (r * ((1 - s) * a + s * b) * C + c.1, r * ((1 - s) * a + s * b) * S + c.2.1, t / 2 * ((1 - s) * u + s * v) + c.2.2) := by
    intro s a b u v
    simp only [lerp3, Prod.mk.injEq]
    exact ⟨by ring, by ring, by ring⟩
  simp only [hl]
  have hne : (1 - h) ≠ 0 := by linarith
  by_cases hh : h = 0
  · simp only [test, hh, decide_true, if_true]
    constructor
    · rintro ⟨i, hi, s, s0, s1, rfl⟩
      simp only [List.length_cons, List.length_nil] at hi
      rcases (by omega : i = 0 ∨ i = 1 ∨ i = 2) with rfl | rfl | rfl
      · exact ⟨s, -1, s0, s1, le_rfl, by norm_num, Or.inl rfl, by refine congrArg _ (Prod.ext ?_ (Prod.ext ?_ ?_)) <;> simp only [Nat.reduceAdd, List.getD_cons_zero, List.getD_cons_succ] <;> ring⟩
      · exact ⟨1, 2 * s - 1, by norm_num, le_rfl, by linarith, by linarith, Or.inr (Or.inr (Or.inl rfl)), by refine congrArg _ (Prod.ext ?_ (Prod.ext ?_ ?_)) <;> simp only [Nat.reduceAdd, List.getD_cons_zero, List.getD_cons_succ] <;> ring⟩
      · exact ⟨1 - s, 1, by linarith, by linarith, by norm_num, le_rfl, Or.inr (Or.inl rfl), by refine congrArg _ (Prod.ext ?_ (Prod.ext ?_ ?_)) <;> simp only [Nat.reduceAdd, List.getD_cons_zero, List.getD_cons_succ] <;> ring⟩
    · rintro ⟨ρ, ζ, r0, r1, z0, z1, hb, rfl⟩
      rcases hb with rfl | rfl | rfl | ⟨h, _⟩
      · exact ⟨0, by simp, ρ, r0, r1, by refine congrArg _ (Prod.ext ?_ (Prod.ext ?_ ?_)) <;> simp only [Nat.reduceAdd, List.getD_cons_zero, List.getD_cons_succ] <;> ring⟩
      · exact ⟨2, by simp, 1 - ρ, by linarith, by linarith, by refine congrArg _ (Prod.ext ?_ (Prod.ext ?_ ?_)) <;> simp only [Nat.reduceAdd, List.getD_cons_zero, List.getD_cons_succ] <;> ring⟩
      · exact ⟨1, by simp, (ζ + 1) / 2, by linarith, by linarith, by refine congrArg _ (Prod.ext ?_ (Prod.ext ?_ ?_)) <;> simp only [Nat.reduceAdd, List.getD_cons_zero, List.getD_cons_succ] <;> ring⟩
      · exact absurd h (lt_irrefl _)
  · have hp : 0 < h := lt_of_le_of_ne h0 (Ne.symm hh)
    simp only [test, hh, decide_false, Bool.false_eq_true, if_false]
    constructor
    · rintro ⟨i, hi, s, s0, s1, rfl⟩
      simp only [List.length_cons, List.length_nil] at hi
      rcases (by omega : i = 0 ∨ i = 1 ∨ i = 2 ∨ i = 3) with rfl | rfl | rfl | rfl
      · exact ⟨(1 - s) * h + s, -1, by nlinarith, by nlinarith, le_rfl, by norm_num, Or.inl rfl, by refine congrArg _ (Prod.ext ?_ (Prod.ext ?_ ?_)) <;> simp only [Nat.reduceAdd, List.getD_cons_zero, List.getD_cons_succ] <;> ring⟩
      · exact ⟨1, 2 * s - 1, h1.le, le_rfl, by linarith, by linarith, Or.inr (Or.inr (Or.inl rfl)), by refine congrArg _ (Prod.ext ?_ (Prod.ext ?_ ?_)) <;> simp only [Nat.reduceAdd, List.getD_cons_zero, List.getD_cons_succ] <;> ring⟩
      · exact ⟨(1 - s) + s * h, 1, by nlinarith, by nlinarith, by norm_num, le_rfl, Or.inr (Or.inl rfl), by refine congrArg _ (Prod.ext ?_ (Prod.ext ?_ ?_)) <;> simp only [Nat.reduceAdd, List.getD_cons_zero, List.getD_cons_succ] <;> ring⟩
      · exact ⟨h, 1 - 2 * s, le_rfl, h1.le, by linarith, by linarith, Or.inr (Or.inr (Or.inr ⟨hp, rfl⟩)), by refine congrArg _ (Prod.ext ?_ (Prod.ext ?_ ?_)) <;> simp only [Nat.reduceAdd, List.getD_cons_zero, List.getD_cons_succ] <;> ring⟩
    · rintro ⟨ρ, ζ, r0, r1, z0, z1, hb, rfl⟩
      rcases hb with rfl | rfl | rfl | ⟨_, rfl⟩
      · have e : (1 - (ρ - h) / (1 - h)) * h + (ρ - h) / (1 - h) = ρ := by field_simp; ring
        exact ⟨0, by simp, (ρ - h) / (1 - h), div_nonneg (by linarith) (by linarith), (div_le_one (by linarith)).2 (by linarith), by refine congrArg _ (Prod.ext ?_ (Prod.ext ?_ ?_)) <;> simp only [Nat.reduceAdd, List.getD_cons_zero, List.getD_cons_succ, mul_one, e] <;> ring⟩
      · have e : (1 - (1 - ρ) / (1 - h)) + (1 - ρ) / (1 - h) * h = ρ := by field_simp; ring
        exact ⟨2, by simp, (1 - ρ) / (1 - h), div_nonneg (by linarith) (by linarith), (div_le_one (by linarith)).2 (by linarith), by refine congrArg _ (Prod.ext ?_ (Prod.ext ?_ ?_)) <;> simp only [Nat.reduceAdd, List.getD_cons_zero, List.getD_cons_succ, mul_one, e] <;> ring⟩
      · exact ⟨1, by simp, (ζ + 1) / 2, by linarith, by linarith, by refine congrArg _ (Prod.ext ?_ (Prod.ext ?_ ?_)) <;> simp only [Nat.reduceAdd, List.getD_cons_zero, List.getD_cons_succ] <;> ring⟩
      · exact ⟨3, by simp, (1 - ζ) / 2, by linarith, by linarith, by refine congrArg _ (Prod.ext ?_ (Prod.ext ?_ ?_)) <;> simp only [Nat.reduceAdd, List.getD_cons_zero, List.getD_cons_succ] <;> ring⟩

/-- **C69, cone.** At every sampled angle the line drawn from row to row of `OpenConeSurface` is exactly the generating line of the cone at this angle. -/
theorem C69_cone_meridian (tip : ℝ × ℝ × ℝ) (r t : ℝ) (z m : ℤ) (j : ℕ) :
    (openConeSurface tip r t z m).meridian j = {x | ∃ s : ℝ, 0 ≤ s ∧ s ≤ 1 ∧
      x = rotateAxis z (s * r * Real.cos (2 * Real.pi * j / sides m) + tip.1, s * r * Real.sin (2 * Real.pi * j / sides m) + tip.2.1, s * t + tip.2.2)} := by
  have ang : linspace2pi (samplingRows m) j = 2 * Real.pi * j / sides m := by
    rw [samplingRows_eq]; unfold linspace2pi; push_cast; ring_nf
  ext x
  simp only [Patch.meridian, openConeSurface, Set.mem_setOf_eq, lerp3_rotate, ang]
  have e : ∀ s : ℝ, lerp3 s (r * ([0, 1] : List ℝ).getD 0 0 * Real.cos (2 * Real.pi * j / sides m) + tip.1,
      r * ([0, 1] : List ℝ).getD 0 0 * Real.sin (2 * Real.pi * j / sides m) + tip.2.1, ([0, 1] : List ℝ).getD 0 0 * t + tip.2.2)
      (r * ([0, 1] : List ℝ).getD (0 + 1) 0 * Real.cos (2 * Real.pi * j / sides m) + tip.1,
      r * ([0, 1] : List ℝ).getD (0 + 1) 0 * Real.sin (2 * Real.pi * j / sides m) + tip.2.1, ([0, 1] : List ℝ).getD (0 + 1) 0 * t + tip.2.2) =
      (s * r * Real.cos (2 * Real.pi * j / sides m) + tip.1, s * r * Real.sin (2 * Real.pi * j / sides m) + tip.2.1, s * t + tip.2.2) := by
    intro s
    simp [lerp3]
    exact ⟨by ring, by ring, by ring⟩
  constructor
  · rintro ⟨i, hi, s, s0, s1, rfl⟩
    obtain rfl : i = 0 := by omega
    exact ⟨s, s0, s1, by rw [e]⟩
  · rintro ⟨s, s0, s1, rfl⟩
    exact ⟨0, by omega, s, s0, s1, by rw [e]⟩

end Causets
