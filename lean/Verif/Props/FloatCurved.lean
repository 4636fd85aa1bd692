import Verif.Props.FloatExact
import Mathlib.Analysis.SpecialFunctions.Trigonometric.DerivHyp
import Mathlib.Analysis.SpecialFunctions.Trigonometric.Bounds
import Mathlib.Analysis.Complex.ExponentialBounds

/-! # C104 — the accuracy of the causality functions of de Sitter and anti-de Sitter spacetime in floating point arithmetic -/

namespace Causets

variable {rnd : ℝ → ℝ}

/-- **Specification.** The functions of the mathematical library have an error of at most two units in the last place of a number of size `|f z| + 1` (the libraries in use are better). -/
structure MathLib.Accurate (lib : MathLib) : Prop where
  sqrt : ∀ z, 0 ≤ z → |lib.sqrt z - Real.sqrt z| ≤ 2 * ulp * (Real.sqrt z + 1)
  sinh : ∀ z, |lib.sinh z - Real.sinh z| ≤ 2 * ulp * (|Real.sinh z| + 1)
  cosh : ∀ z, |lib.cosh z - Real.cosh z| ≤ 2 * ulp * (|Real.cosh z| + 1)
  sin : ∀ z, |lib.sin z - Real.sin z| ≤ 2 * ulp * (|Real.sin z| + 1)
  cos : ∀ z, |lib.cos z - Real.cos z| ≤ 2 * ulp * (|Real.cos z| + 1)
  sq : ∀ z, |lib.sq z - z ^ 2| ≤ 2 * ulp * (z ^ 2 + 1)

/-- **Specification.** The error of the squared amplitude, in units of `ulp = 2^-53`, for `n` space dimensions and amplitudes up to `A`. -/
def curvedErrD (n A : ℝ) : ℝ := (4 * n + 6) * (A ^ 2 + n + 1) + 3 * A ^ 2 + 4

/-- **Specification.** The error of the difference of an embedding coordinate, in units of `2^-53`: `n` space dimensions, amplitudes between `s` and `A`, hyperbolic functions up to `H`,
`|t / alpha|` up to `T`. -/
noncomputable def curvedErrX (n A H T s : ℝ) : ℝ :=
  2 * ((A + 1) * (2 * H * (T + 1) + 2 * H + 4) + H * (curvedErrD n A / s + 2 * A + 4) + A * H + 2) + 2 * A * H + 2

/-- **Specification.** The error of the compared squares, in units of `2^-53`. -/
noncomputable def curvedErr (n A H T s : ℝ) : ℝ :=
  2 * ((4 * A * H + 1) * curvedErrX n A H T s + 2 * (2 * A * H + 1) ^ 2 + 2) + (4 * n + 6) * (4 * A ^ 2 + n + 1) + 16 * (A * H) ^ 2 + 5

/-! ## steps -/

theorem near_rnd (hr : IsRounding rnd) {a b e B : ℝ} (h : |a - b| ≤ e * ulp) (hB : |b| ≤ B) (he : e * ulp ≤ 1) : |rnd a - b| ≤ (e + B + 2) * ulp := by
  have h1 := hr.err' a
  have h2 := abs_sub_le (rnd a) a b
  have h3 : |a| ≤ B + 1 := by
    have := abs_sub_abs_le_abs_sub a b
    linarith
  have := mul_le_mul_of_nonneg_left (add_le_add_left h3 1) ulp_pos.le
  nlinarith

theorem near_mul {a b c d e f B D : ℝ} (h : |a - b| ≤ e * ulp) (h' : |c - d| ≤ f * ulp) (hB : |b| ≤ B) (hD : |d| ≤ D) (he : e * ulp ≤ 1) :
    |a * c - b * d| ≤ ((B + 1) * f + D * e) * ulp := by
  have e1 : a * c - b * d = a * (c - d) + (a - b) * d := by ring
  rw [e1]
  refine (abs_add_le _ _).trans ?_
  rw [abs_mul, abs_mul]
  have h3 : |a| ≤ B + 1 := by
    have := abs_sub_abs_le_abs_sub a b
    linarith
  have h4 : |a| * |c - d| ≤ (B + 1) * (f * ulp) := mul_le_mul h3 h' (abs_nonneg _) (le_trans (abs_nonneg _) h3)
  have h5 : |a - b| * |d| ≤ (e * ulp) * D := mul_le_mul h hD (abs_nonneg _) (le_trans (abs_nonneg _) h)
  linarith

theorem near_sq {lib : MathLib} (hl : lib.Accurate) {a b e B : ℝ} (h : |a - b| ≤ e * ulp) (hB : |b| ≤ B) (he : e * ulp ≤ 1) :
    |lib.sq a - b ^ 2| ≤ ((2 * B + 1) * e + 2 * (B + 1) ^ 2 + 2) * ulp := by
  have h0 := abs_nonneg b
  have h1 := hl.sq a
  have h2 := near_mul h h hB hB he
  have h3 := abs_sub_le (lib.sq a) (a ^ 2) (b ^ 2)
  have h4 : |a| ≤ B + 1 := by
    have := abs_sub_abs_le_abs_sub a b
    linarith
  have h5 : a ^ 2 ≤ (B + 1) ^ 2 := by rw [← sq_abs a]; exact pow_le_pow_left₀ (abs_nonneg _) h4 2
  rw [show a * a = a ^ 2 by ring, show b * b = b ^ 2 by ring] at h2
  have h6 := mul_le_mul_of_nonneg_left (add_le_add_left h5 1) (by linarith [ulp_pos] : 0 ≤ 2 * ulp)
  linarith

theorem near_sub {a b c d e f : ℝ} (h : |a - b| ≤ e * ulp) (h' : |c - d| ≤ f * ulp) : |(a - c) - (b - d)| ≤ (e + f) * ulp := by
  rw [show (a - c) - (b - d) = (a - b) - (c - d) by ring]
  refine (abs_sub _ _).trans ?_
  linarith

theorem near_add {a b c d e f : ℝ} (h : |a - b| ≤ e * ulp) (h' : |c - d| ≤ f * ulp) : |(a + c) - (b + d)| ≤ (e + f) * ulp := by
  rw [show (a + c) - (b + d) = (a - b) + (c - d) by ring]
  refine (abs_add_le _ _).trans ?_
  linarith

theorem near_sqrt {a b s : ℝ} (ha : 0 ≤ a) (hs : 0 < s) (hb : s ^ 2 ≤ b) : |Real.sqrt a - Real.sqrt b| ≤ |a - b| / s := by
  have h1 : s ≤ Real.sqrt b := Real.le_sqrt_of_sq_le hb
  have h2 := Real.sqrt_nonneg a
  have h3 : (Real.sqrt a - Real.sqrt b) * (Real.sqrt a + Real.sqrt b) = a - b := by
    have e1 := Real.sq_sqrt ha
    have e2 := Real.sq_sqrt (le_trans (sq_nonneg s) hb)
    nlinarith
  rw [le_div_iff₀ hs, ← h3, abs_mul]
  refine mul_le_mul_of_nonneg_left ?_ (abs_nonneg _)
  rw [abs_of_nonneg (by linarith)]
  linarith

/-! ## sums -/

theorem flNormSq_near (hr : IsRounding rnd) (dim : ℕ) (x : Point) {A : ℝ} (hx : ∑ i ∈ Finset.Ico 1 dim, (x i) ^ 2 ≤ A ^ 2) (hn : ((dim - 1 : ℕ) : ℝ) * (2 * ulp) ≤ 1) :
    |flNormSq rnd dim x - ∑ i ∈ Finset.Ico 1 dim, (x i) ^ 2| ≤ ((4 * ((dim - 1 : ℕ) : ℝ) + 6) * (A ^ 2 + ((dim - 1 : ℕ) : ℝ) + 1)) * ulp := by
  have hu := ulp_pos
  have h := flSum_near hr (List.range' 1 (dim - 1)) (fun i => rnd (x i ^ 2)) (fun i => x i ^ 2) (fun i => x i ^ 2 + 1)
    (fun i _ => hr.nonneg (sq_nonneg _)) (fun i _ => ⟨sq_nonneg _, by linarith⟩) (fun i _ => by
      have := hr.err' (x i ^ 2)
      rw [abs_of_nonneg (sq_nonneg (x i))] at this
      have h2 : 0 ≤ ulp * (x i ^ 2 + 1) := by positivity
      linarith) (by simpa using hn)
  rw [← sum_Ico_list (fun i => x i ^ 2), ← sum_Ico_list (fun i => x i ^ 2 + 1), Finset.sum_add_distrib, List.length_range'] at h
  have e : ∑ i ∈ Finset.Ico 1 dim, (1 : ℝ) = ((dim - 1 : ℕ) : ℝ) := by simp
  rw [e] at h
  refine h.trans ?_
  have hn0 : (0 : ℝ) ≤ ((dim - 1 : ℕ) : ℝ) := Nat.cast_nonneg _
  have : (4 * ((dim - 1 : ℕ) : ℝ) + 6) * ulp * (1 + (∑ i ∈ Finset.Ico 1 dim, (x i) ^ 2 + ((dim - 1 : ℕ) : ℝ))) ≤
      (4 * ((dim - 1 : ℕ) : ℝ) + 6) * ulp * (1 + (A ^ 2 + ((dim - 1 : ℕ) : ℝ))) := mul_le_mul_of_nonneg_left (by linarith) (by positivity)
  linarith

theorem spaceSq_bound (dim : ℕ) (x y : Point) {A : ℝ} (hx : ∑ i ∈ Finset.Ico 1 dim, (x i) ^ 2 ≤ A ^ 2) (hy : ∑ i ∈ Finset.Ico 1 dim, (y i) ^ 2 ≤ A ^ 2) :
    0 ≤ spaceSq dim x y ∧ spaceSq dim x y ≤ 4 * A ^ 2 := by
  refine ⟨Finset.sum_nonneg fun i _ => sq_nonneg _, ?_⟩
  have : spaceSq dim x y ≤ ∑ i ∈ Finset.Ico 1 dim, (2 * (y i) ^ 2 + 2 * (x i) ^ 2) := Finset.sum_le_sum fun i _ => by nlinarith [sq_nonneg (y i + x i)]
  rw [Finset.sum_add_distrib, ← Finset.mul_sum, ← Finset.mul_sum] at this
  linarith

theorem flSpaceSq_near (hr : IsRounding rnd) (dim : ℕ) (x y : Point) {A : ℝ} (hx : ∑ i ∈ Finset.Ico 1 dim, (x i) ^ 2 ≤ A ^ 2) (hy : ∑ i ∈ Finset.Ico 1 dim, (y i) ^ 2 ≤ A ^ 2)
    (hn : ((dim - 1 : ℕ) : ℝ) * (2 * ulp) ≤ 1) :
    |flSpaceSq rnd dim x y - spaceSq dim x y| ≤ ((4 * ((dim - 1 : ℕ) : ℝ) + 6) * (4 * A ^ 2 + ((dim - 1 : ℕ) : ℝ) + 1)) * ulp := by
  have hu := ulp_pos
  have h := flSum_near hr (List.range' 1 (dim - 1)) (fun i => rnd (rnd (y i - x i) ^ 2)) (fun i => (y i - x i) ^ 2) (fun i => (y i - x i) ^ 2 + 1)
    (fun i _ => hr.nonneg (sq_nonneg _)) (fun i _ => ⟨sq_nonneg _, by linarith⟩) (fun i _ => (hr.sq_err _).2) (by simpa using hn)
  rw [← sum_Ico_list (fun i => (y i - x i) ^ 2), ← sum_Ico_list (fun i => (y i - x i) ^ 2 + 1), Finset.sum_add_distrib, List.length_range'] at h
  have e : ∑ i ∈ Finset.Ico 1 dim, (1 : ℝ) = ((dim - 1 : ℕ) : ℝ) := by simp
  rw [e] at h
  refine h.trans ?_
  have hb := (spaceSq_bound dim x y hx hy).2
  unfold spaceSq at hb
  have hn0 : (0 : ℝ) ≤ ((dim - 1 : ℕ) : ℝ) := Nat.cast_nonneg _
  have : (4 * ((dim - 1 : ℕ) : ℝ) + 6) * ulp * (1 + (∑ i ∈ Finset.Ico 1 dim, (y i - x i) ^ 2 + ((dim - 1 : ℕ) : ℝ))) ≤
      (4 * ((dim - 1 : ℕ) : ℝ) + 6) * ulp * (1 + (4 * A ^ 2 + ((dim - 1 : ℕ) : ℝ))) := mul_le_mul_of_nonneg_left (by linarith) (by positivity)
  linarith

/-! ## hyperbolic functions -/

theorem exp_small {d : ℝ} (h : |d| ≤ 1) : Real.exp |d| - 1 ≤ 2 * |d| := by
  have h1 := Real.abs_exp_sub_one_sub_id_le (x := |d|) (by rwa [abs_abs])
  have h2 := (abs_le.1 h1).2
  have h3 := abs_nonneg d
  nlinarith

theorem cosh_sinh_abs (d : ℝ) : (Real.cosh d - 1) + |Real.sinh d| = Real.exp |d| - 1 := by
  rw [← Real.cosh_abs d, Real.abs_sinh, ← Real.cosh_add_sinh |d|]; ring

theorem sinh_lip {u v H : ℝ} (hv : Real.cosh v ≤ H) (h : |u - v| ≤ 1) : |Real.sinh u - Real.sinh v| ≤ 2 * H * |u - v| := by
  have e : Real.sinh u - Real.sinh v = Real.sinh v * (Real.cosh (u - v) - 1) + Real.cosh v * Real.sinh (u - v) := by
    have : u = v + (u - v) := by ring
    conv_lhs => rw [this]
    rw [Real.sinh_add]; ring
  have h1 := exp_small h
  have h2 := cosh_sinh_abs (u - v)
  have h3 : |Real.sinh v| ≤ Real.cosh v := by rw [Real.abs_sinh, ← Real.cosh_abs v]; exact (Real.sinh_lt_cosh _).le
  have h4 := Real.one_le_cosh (u - v)
  have h5 := Real.cosh_pos v
  rw [e]
  refine (abs_add_le _ _).trans ?_
  rw [abs_mul, abs_mul, abs_of_nonneg (by linarith : 0 ≤ Real.cosh (u - v) - 1), abs_of_pos h5]
  have h6 : |Real.sinh v| * (Real.cosh (u - v) - 1) ≤ Real.cosh v * (Real.cosh (u - v) - 1) := mul_le_mul_of_nonneg_right h3 (by linarith)
  have h7 : Real.cosh v * (Real.exp |u - v| - 1) ≤ H * (2 * |u - v|) := mul_le_mul hv h1 (by rw [← h2]; have := abs_nonneg (Real.sinh (u - v)); linarith) (by linarith)
  rw [← h2] at h7
  linarith

theorem cosh_lip {u v H : ℝ} (hv : Real.cosh v ≤ H) (h : |u - v| ≤ 1) : |Real.cosh u - Real.cosh v| ≤ 2 * H * |u - v| := by
  have e : Real.cosh u - Real.cosh v = Real.cosh v * (Real.cosh (u - v) - 1) + Real.sinh v * Real.sinh (u - v) := by
    have : u = v + (u - v) := by ring
    conv_lhs => rw [this]
    rw [Real.cosh_add]; ring
  have h1 := exp_small h
  have h2 := cosh_sinh_abs (u - v)
  have h3 : |Real.sinh v| ≤ Real.cosh v := by rw [Real.abs_sinh, ← Real.cosh_abs v]; exact (Real.sinh_lt_cosh _).le
  have h4 := Real.one_le_cosh (u - v)
  have h5 := Real.cosh_pos v
  rw [e]
  refine (abs_add_le _ _).trans ?_
  rw [abs_mul, abs_mul, abs_of_nonneg (by linarith : 0 ≤ Real.cosh (u - v) - 1), abs_of_pos h5]
  have h6 : |Real.sinh v| * |Real.sinh (u - v)| ≤ Real.cosh v * |Real.sinh (u - v)| := mul_le_mul_of_nonneg_right h3 (abs_nonneg _)
  have h7 : Real.cosh v * (Real.exp |u - v| - 1) ≤ H * (2 * |u - v|) := mul_le_mul hv h1 (by rw [← h2]; have := abs_nonneg (Real.sinh (u - v)); linarith) (by linarith)
  rw [← h2] at h7
  linarith

/-! ## an embedding coordinate -/

/-- the amplitude -/
theorem amp_near {lib : MathLib} (hl : lib.Accurate) {Dh D d A s : ℝ} (hs : 0 < s) (hD : s ^ 2 ≤ D) (hDA : D ≤ A ^ 2) (hA : 0 ≤ A) (h : |Dh - D| ≤ d * ulp) (hd : d * ulp ≤ s ^ 2 / 2)
    (hds : d / s * ulp ≤ 1) : |lib.sqrt Dh - Real.sqrt D| ≤ (d / s + 2 * A + 4) * ulp := by
  have h0 : 0 ≤ Dh := by have := abs_le.1 h; nlinarith [sq_nonneg s]
  have h1 := near_sqrt h0 hs hD
  have h2 := hl.sqrt Dh h0
  have h3 := abs_sub_le (lib.sqrt Dh) (Real.sqrt Dh) (Real.sqrt D)
  have h4 : |Dh - D| / s ≤ d / s * ulp := by
    rw [show d / s * ulp = d * ulp / s by ring]
    exact div_le_div_of_nonneg_right h hs.le
  have h5 : Real.sqrt D ≤ A := Real.sqrt_le_iff.2 ⟨hA, hDA⟩
  have h6 : Real.sqrt Dh ≤ A + 1 := by have := (abs_le.1 h1).2; linarith
  have := mul_le_mul_of_nonneg_left (add_le_add_left h6 1) (by linarith [ulp_pos] : 0 ≤ 2 * ulp)
  linarith

/-- the value of a hyperbolic or trigonometric function -/
theorem trig_near (hr : IsRounding rnd) {f F : ℝ → ℝ} (hf : ∀ z, |f z - F z| ≤ 2 * ulp * (|F z| + 1)) {v H T : ℝ} (hH : |F v| ≤ H) (hH1 : 1 ≤ H) (hT : |v| ≤ T)
    (hlip : ∀ u, |u - v| ≤ 1 → |F u - F v| ≤ 2 * H * |u - v|) (hs : 2 * H * (T + 1) * ulp ≤ 1) : |f (rnd v) - F v| ≤ (2 * H * (T + 1) + 2 * H + 4) * ulp := by
  have hu := ulp_pos
  have hT0 : 0 ≤ T := (abs_nonneg v).trans hT
  have h1 : |rnd v - v| ≤ (T + 1) * ulp := by
    refine (hr.err' v).trans ?_
    nlinarith
  have h2 : |rnd v - v| ≤ 1 := by
    refine h1.trans (le_trans ?_ hs)
    have : 0 ≤ (T + 1) * ulp := by positivity
    nlinarith
  have h3 : |F (rnd v) - F v| ≤ 2 * H * (T + 1) * ulp := by
    refine (hlip _ h2).trans ?_
    have := mul_le_mul_of_nonneg_left h1 (by linarith : 0 ≤ 2 * H)
    linarith
  have h4 : |F (rnd v)| ≤ H + 1 := by
    have := abs_sub_abs_le_abs_sub (F (rnd v)) (F v)
    linarith
  have h5 := hf (rnd v)
  have h6 := abs_sub_le (f (rnd v)) (F (rnd v)) (F v)
  have := mul_le_mul_of_nonneg_left (add_le_add_left h4 1) (by linarith [ulp_pos] : 0 ≤ 2 * ulp)
  linarith

/-- the difference of an embedding coordinate -/
theorem coord_near (hr : IsRounding rnd) {lib : MathLib} (hl : lib.Accurate) {f F : ℝ → ℝ} (hf : ∀ z, |f z - F z| ≤ 2 * ulp * (|F z| + 1)) {n A H T s : ℝ} (hn : 0 ≤ n) (hs : 0 < s) (hA : 1 ≤ A)
    (hH : 1 ≤ H) (hT0 : 0 ≤ T) {Dhx Dhy Dx Dy vx vy : ℝ}
    (hDx : s ^ 2 ≤ Dx ∧ Dx ≤ A ^ 2) (hDy : s ^ 2 ≤ Dy ∧ Dy ≤ A ^ 2) (hx : |Dhx - Dx| ≤ curvedErrD n A * ulp) (hy : |Dhy - Dy| ≤ curvedErrD n A * ulp)
    (hd : curvedErrD n A * ulp ≤ s ^ 2 / 2) (hX : curvedErrX n A H T s * ulp ≤ 1) (hvx : |F vx| ≤ H ∧ |vx| ≤ T) (hvy : |F vy| ≤ H ∧ |vy| ≤ T)
    (hlip : ∀ v ∈ [vx, vy], ∀ u, |u - v| ≤ 1 → |F u - F v| ≤ 2 * H * |u - v|) :
    |rnd (rnd (lib.sqrt Dhy * f (rnd vy)) - rnd (lib.sqrt Dhx * f (rnd vx))) - (Real.sqrt Dy * F vy - Real.sqrt Dx * F vx)| ≤ curvedErrX n A H T s * ulp ∧
    |Real.sqrt Dy * F vy - Real.sqrt Dx * F vx| ≤ 2 * A * H := by
  have hu := ulp_pos
  have hd0 : 0 ≤ curvedErrD n A := by unfold curvedErrD; positivity
  have hds : 0 ≤ curvedErrD n A / s := by positivity
  have hAH : 1 ≤ A * H := one_le_mul_of_one_le_of_one_le hA hH
  have hHT : 0 ≤ H * T := by positivity
  -- the parts of the error
  have key : ∀ e, e ≤ curvedErrX n A H T s → e * ulp ≤ 1 := fun e he => (mul_le_mul_of_nonneg_right he hu.le).trans hX
  have hHq : curvedErrD n A / s + 2 * A + 4 ≤ H * (curvedErrD n A / s + 2 * A + 4) := le_mul_of_one_le_left (by positivity) hH
  have hAq : 2 * H * (T + 1) + 2 * H + 4 ≤ (A + 1) * (2 * H * (T + 1) + 2 * H + 4) := le_mul_of_one_le_left (by positivity) (by linarith)
  have hq1 : 0 ≤ 2 * H * (T + 1) := by positivity
  have k1 : curvedErrD n A / s * ulp ≤ 1 := key _ (by unfold curvedErrX; linarith)
  have k2 : 2 * H * (T + 1) * ulp ≤ 1 := key _ (by unfold curvedErrX; linarith)
  have k3 : (curvedErrD n A / s + 2 * A + 4) * ulp ≤ 1 := key _ (by unfold curvedErrX; linarith)
  have k4 : ((A + 1) * (2 * H * (T + 1) + 2 * H + 4) + H * (curvedErrD n A / s + 2 * A + 4)) * ulp ≤ 1 := key _ (by unfold curvedErrX; linarith)
  have one : ∀ {Dh D v : ℝ}, s ^ 2 ≤ D ∧ D ≤ A ^ 2 → |Dh - D| ≤ curvedErrD n A * ulp → |F v| ≤ H ∧ |v| ≤ T → (∀ u, |u - v| ≤ 1 → |F u - F v| ≤ 2 * H * |u - v|) →
      |rnd (lib.sqrt Dh * f (rnd v)) - Real.sqrt D * F v| ≤ ((A + 1) * (2 * H * (T + 1) + 2 * H + 4) + H * (curvedErrD n A / s + 2 * A + 4) + A * H + 2) * ulp ∧
      |Real.sqrt D * F v| ≤ A * H := by
    intro Dh D v hD h hv hl'
    have a1 := amp_near hl hs hD.1 hD.2 (by linarith) h hd k1
    have a2 := trig_near hr hf hv.1 hH hv.2 hl' k2
    have a3 : |Real.sqrt D| ≤ A := by rw [abs_of_nonneg (Real.sqrt_nonneg _)]; exact Real.sqrt_le_iff.2 ⟨by linarith, hD.2⟩
    have a4 := near_mul a1 a2 a3 hv.1 k3
    have a5 : |Real.sqrt D * F v| ≤ A * H := by rw [abs_mul]; exact mul_le_mul a3 hv.1 (abs_nonneg _) (by linarith)
    exact ⟨near_rnd hr a4 a5 k4, a5⟩
  obtain ⟨b1, b2⟩ := one hDx hx hvx (hlip vx (by simp))
  obtain ⟨c1, c2⟩ := one hDy hy hvy (hlip vy (by simp))
  have e1 := near_sub c1 b1
  have e2 : |Real.sqrt Dy * F vy - Real.sqrt Dx * F vx| ≤ 2 * A * H := by
    refine (abs_sub _ _).trans ?_
    linarith
  refine ⟨?_, e2⟩
  have := near_rnd hr e1 e2 (key _ (by unfold curvedErrX; linarith))
  unfold curvedErrX
  refine this.trans (le_of_eq ?_)
  ring

/-! ## the answers -/

/-- from the errors of the two sides of the comparison to the answers -/
theorem answers_near {dh dl lhs rhs I eps g E : ℝ} (h1 : |dh - dl| ≤ g) (h2 : |lhs - rhs - (I + eps)| ≤ E) :
    let c : Bool × Bool := (test (dh ≥ 0) && test (lhs ≥ rhs), test (dh < 0) && test (lhs ≥ rhs))
    (c.1 = true → -g ≤ dl ∧ -(eps + E) ≤ I) ∧ (c.2 = true → dl ≤ g ∧ -(eps + E) ≤ I) ∧ (E - eps ≤ I → c.1 = true ∨ c.2 = true) ∧
    (E - eps ≤ I → g ≤ dl → c.1 = true) ∧ (E - eps ≤ I → dl < -g → c.2 = true) := by
  have a1 := abs_le.1 h1
  have a2 := abs_le.1 h2
  simp only [test, Bool.and_eq_true, decide_eq_true_eq, ge_iff_le]
  refine ⟨fun h => ⟨by linarith [h.1], by linarith [h.2]⟩, fun h => ⟨by linarith [h.1], by linarith [h.2]⟩, fun h => ?_, fun h h' => ⟨by linarith, by linarith⟩,
    fun h h' => ⟨by linarith, by linarith⟩⟩
  rcases lt_or_ge dh 0 with h0 | h0
  · exact Or.inr ⟨h0, by linarith⟩
  · exact Or.inl ⟨h0, by linarith⟩

theorem sum_small {n A H T s : ℝ} (hn : 0 ≤ n) (hA : 1 ≤ A) (hH : 1 ≤ H) (hT : 0 ≤ T) (hs : 0 < s) (hE : curvedErr n A H T s * ulp ≤ 1) :
    n * (2 * ulp) ≤ 1 ∧ curvedErrX n A H T s * ulp ≤ 1 ∧ 0 ≤ curvedErrX n A H T s := by
  have hu := ulp_pos
  have hd0 : 0 ≤ curvedErrD n A := by unfold curvedErrD; positivity
  have hX : 0 ≤ curvedErrX n A H T s := by unfold curvedErrX; positivity
  have key : ∀ e, e ≤ curvedErr n A H T s → e * ulp ≤ 1 := fun e he => (mul_le_mul_of_nonneg_right he hu.le).trans hE
  have hAH : 1 ≤ A * H := one_le_mul_of_one_le_of_one_le hA hH
  have h1 : curvedErrX n A H T s ≤ (4 * A * H + 1) * curvedErrX n A H T s := le_mul_of_one_le_left hX (by linarith)
  have h2 : 0 ≤ (2 * A * H + 1) ^ 2 := sq_nonneg _
  have h3 : 0 ≤ (A * H) ^ 2 := sq_nonneg _
  have h4 : 2 * n ≤ (4 * n + 6) * (4 * A ^ 2 + n + 1) := by nlinarith [sq_nonneg A, sq_nonneg n]
  have h5 : 0 ≤ (4 * n + 6) * (4 * A ^ 2 + n + 1) := by positivity
  refine ⟨?_, key _ (by unfold curvedErr; linarith), hX⟩
  have := key (2 * n) (by unfold curvedErr; linarith)
  linarith

/-- **C104, accuracy in de Sitter spacetime.** Let the radius be at most `A`, let two points be inside the horizon (with `alpha² - r² ≥ s²`), `|t / alpha| ≤ T` and `cosh (t / alpha) ≤ H`, let the
functions of the mathematical library be accurate, and let the numbers be moderate (the error bounds `curvedErrD`, `curvedErr` are small). Then the answers computed with rounding are those of the
embedding into Minkowski spacetime, up to the errors `curvedErrX / 2^53` of the difference of the embedding times `dt` and `curvedErr / 2^53` of the interval `I = dt² - distance²`: an answer
is only given for `I` not below the tolerance (up to the error), every pair with a larger `I` gets an answer, and the direction is the sign of `dt` (up to the error). -/
theorem C104_deSitter (hr : IsRounding rnd) (lib : MathLib) (hl : lib.Accurate) (eps : ℝ) (he0 : 0 ≤ eps) (he1 : eps ≤ 1) (dim : ℕ) (hdim : 1 ≤ dim) (alpha alphaSq : ℝ)
    (ha2 : |alphaSq - alpha ^ 2| ≤ 2 * ulp * (alpha ^ 2 + 1)) (A H T s : ℝ) (hA : 1 ≤ A) (hA' : alpha ^ 2 ≤ A ^ 2) (hs : 0 < s) (x y : Point)
    (hx : ∑ i ∈ Finset.Ico 1 dim, (x i) ^ 2 + s ^ 2 ≤ alpha ^ 2 ∧ |x 0 / alpha| ≤ T ∧ Real.cosh (x 0 / alpha) ≤ H)
    (hy : ∑ i ∈ Finset.Ico 1 dim, (y i) ^ 2 + s ^ 2 ≤ alpha ^ 2 ∧ |y 0 / alpha| ≤ T ∧ Real.cosh (y 0 / alpha) ≤ H)
    (hd : curvedErrD (dim - 1 : ℕ) A / 2 ^ 53 ≤ s ^ 2 / 2) (hE : curvedErr (dim - 1 : ℕ) A H T s / 2 ^ 53 ≤ 1) :
    let c := causalityDSFl rnd lib eps dim alpha alphaSq x y
    let dt := dSEmbed dim alpha y 0 - dSEmbed dim alpha x 0
    let I := dt ^ 2 - spaceSq (dim + 1) (dSEmbed dim alpha x) (dSEmbed dim alpha y)
    let g := curvedErrX (dim - 1 : ℕ) A H T s / 2 ^ 53
    let E := curvedErr (dim - 1 : ℕ) A H T s / 2 ^ 53
    (c.1 = true → -g ≤ dt ∧ -(eps + E) ≤ I) ∧ (c.2 = true → dt ≤ g ∧ -(eps + E) ≤ I) ∧ (E - eps ≤ I → c.1 = true ∨ c.2 = true) ∧
    (E - eps ≤ I → g ≤ dt → c.1 = true) ∧ (E - eps ≤ I → dt < -g → c.2 = true) := by
  intro c dt I g E
  have hu := ulp_pos
  have eu : ∀ z : ℝ, z / 2 ^ 53 = z * ulp := fun z => by unfold ulp; ring
  simp only [eu] at hd hE
  have hn : (0 : ℝ) ≤ ((dim - 1 : ℕ) : ℝ) := Nat.cast_nonneg _
  set n : ℝ := ((dim - 1 : ℕ) : ℝ)
  have hH : 1 ≤ H := (Real.one_le_cosh _).trans hx.2.2
  have hT : 0 ≤ T := (abs_nonneg _).trans hx.2.1
  obtain ⟨hn2, hX, hX0⟩ := sum_small hn hA hH hT hs hE
  have hAH : 1 ≤ A * H := one_le_mul_of_one_le_of_one_le hA hH
  have hs2 : 0 < s ^ 2 := by positivity
  -- the squared amplitude
  have amp : ∀ z : Point, ∑ i ∈ Finset.Ico 1 dim, (z i) ^ 2 + s ^ 2 ≤ alpha ^ 2 → flNormSq rnd dim z < alphaSq ∧
      |rnd (alphaSq - flNormSq rnd dim z) - (alpha ^ 2 - ∑ i ∈ Finset.Ico 1 dim, (z i) ^ 2)| ≤ curvedErrD n A * ulp ∧
      (s ^ 2 ≤ alpha ^ 2 - ∑ i ∈ Finset.Ico 1 dim, (z i) ^ 2 ∧ alpha ^ 2 - ∑ i ∈ Finset.Ico 1 dim, (z i) ^ 2 ≤ A ^ 2) ∧ ∑ i ∈ Finset.Ico 1 dim, (z i) ^ 2 ≤ A ^ 2 := by
    intro z hz
    have b0 : 0 ≤ ∑ i ∈ Finset.Ico 1 dim, (z i) ^ 2 := Finset.sum_nonneg fun i _ => sq_nonneg _
    have b1 : ∑ i ∈ Finset.Ico 1 dim, (z i) ^ 2 ≤ A ^ 2 := by linarith
    have b2 := flNormSq_near hr dim z b1 hn2
    have b3 : |alphaSq - alpha ^ 2| ≤ (2 * (A ^ 2 + 1)) * ulp := by
      refine ha2.trans ?_
      nlinarith
    have b4 := near_sub b3 b2
    have b5 : |alpha ^ 2 - ∑ i ∈ Finset.Ico 1 dim, (z i) ^ 2| ≤ A ^ 2 := by rw [abs_of_nonneg (by linarith)]; linarith
    have b6 : (2 * (A ^ 2 + 1) + (4 * n + 6) * (A ^ 2 + n + 1)) * ulp ≤ s ^ 2 / 2 := by
      refine le_trans (mul_le_mul_of_nonneg_right ?_ hu.le) hd
      unfold curvedErrD
      nlinarith [sq_nonneg A]
    have b7 : (2 * (A ^ 2 + 1) + (4 * n + 6) * (A ^ 2 + n + 1)) * ulp ≤ 1 := by
      refine le_trans (mul_le_mul_of_nonneg_right ?_ hu.le) hE
      unfold curvedErr
      have c1 : 0 ≤ (4 * A * H + 1) * curvedErrX n A H T s := mul_nonneg (by linarith) hX0
      have c2 : 0 ≤ (2 * A * H + 1) ^ 2 := sq_nonneg _
      have c3 : (4 * n + 6) * (A ^ 2 + n + 1) ≤ (4 * n + 6) * (4 * A ^ 2 + n + 1) := mul_le_mul_of_nonneg_left (by nlinarith) (by positivity)
      have c4 : A ^ 2 ≤ (A * H) ^ 2 := pow_le_pow_left₀ (by linarith) (le_mul_of_one_le_right (by linarith) hH) 2
      nlinarith [sq_nonneg A]
    have b8 := near_rnd hr b4 b5 b7
    refine ⟨?_, b8.trans (le_of_eq ?_), ⟨by linarith, by linarith⟩, b1⟩
    · have := abs_le.1 b4
      have : 0 < alphaSq - flNormSq rnd dim z := by linarith [this.1]
      linarith
    · unfold curvedErrD; ring
  obtain ⟨hx1, hx2, hx3, hx4⟩ := amp x hx.1
  obtain ⟨hy1, hy2, hy3, hy4⟩ := amp y hy.1
  have hsc : ∀ v : ℝ, |Real.sinh v| ≤ Real.cosh v := fun v => by rw [Real.abs_sinh, ← Real.cosh_abs v]; exact (Real.sinh_lt_cosh _).le
  have hca : ∀ v : ℝ, |Real.cosh v| = Real.cosh v := fun v => abs_of_pos (Real.cosh_pos v)
  have hh : ∀ v ∈ [x 0 / alpha, y 0 / alpha], Real.cosh v ≤ H := by
    intro v hv
    simp only [List.mem_cons, List.not_mem_nil, or_false] at hv
    rcases hv with rfl | rfl
    · exact hx.2.2
    · exact hy.2.2
  obtain ⟨p1, p2⟩ := coord_near hr hl hl.sinh hn hs hA hH hT hx3 hy3 hx2 hy2 hd hX ⟨(hsc _).trans hx.2.2, hx.2.1⟩ ⟨(hsc _).trans hy.2.2, hy.2.1⟩
    (fun v hv u hu => sinh_lip (hh v hv) hu)
  obtain ⟨q1, q2⟩ := coord_near hr hl hl.cosh hn hs hA hH hT hx3 hy3 hx2 hy2 hd hX ⟨(hca _).le.trans hx.2.2, hx.2.1⟩ ⟨(hca _).le.trans hy.2.2, hy.2.1⟩
    (fun v hv u hu => cosh_lip (hh v hv) hu)
  have e0 : ∀ z : Point, dSEmbed dim alpha z 0 = Real.sqrt (alpha ^ 2 - ∑ i ∈ Finset.Ico 1 dim, (z i) ^ 2) * Real.sinh (z 0 / alpha) := fun z => by simp [dSEmbed]
  have e1 : ∀ z : Point, dSEmbed dim alpha z dim = Real.sqrt (alpha ^ 2 - ∑ i ∈ Finset.Ico 1 dim, (z i) ^ 2) * Real.cosh (z 0 / alpha) := fun z => by
    simp [dSEmbed, show dim ≠ 0 by omega]
  rw [← e0, ← e0] at p1 p2
  rw [← e1, ← e1] at q1 q2
  have hc : c = (test (rnd (rnd (lib.sqrt (rnd (alphaSq - flNormSq rnd dim y)) * lib.sinh (rnd (y 0 / alpha))) - rnd (lib.sqrt (rnd (alphaSq - flNormSq rnd dim x)) * lib.sinh (rnd (x 0 / alpha)))) ≥ 0) &&
        test (lib.sq (rnd (rnd (lib.sqrt (rnd (alphaSq - flNormSq rnd dim y)) * lib.sinh (rnd (y 0 / alpha))) - rnd (lib.sqrt (rnd (alphaSq - flNormSq rnd dim x)) * lib.sinh (rnd (x 0 / alpha))))) ≥
          rnd (rnd (flSpaceSq rnd dim x y + lib.sq (rnd (rnd (lib.sqrt (rnd (alphaSq - flNormSq rnd dim y)) * lib.cosh (rnd (y 0 / alpha))) -
            rnd (lib.sqrt (rnd (alphaSq - flNormSq rnd dim x)) * lib.cosh (rnd (x 0 / alpha)))))) - eps)),
      test (rnd (rnd (lib.sqrt (rnd (alphaSq - flNormSq rnd dim y)) * lib.sinh (rnd (y 0 / alpha))) - rnd (lib.sqrt (rnd (alphaSq - flNormSq rnd dim x)) * lib.sinh (rnd (x 0 / alpha)))) < 0) &&
        test (lib.sq (rnd (rnd (lib.sqrt (rnd (alphaSq - flNormSq rnd dim y)) * lib.sinh (rnd (y 0 / alpha))) - rnd (lib.sqrt (rnd (alphaSq - flNormSq rnd dim x)) * lib.sinh (rnd (x 0 / alpha))))) ≥
          rnd (rnd (flSpaceSq rnd dim x y + lib.sq (rnd (rnd (lib.sqrt (rnd (alphaSq - flNormSq rnd dim y)) * lib.cosh (rnd (y 0 / alpha))) -
            rnd (lib.sqrt (rnd (alphaSq - flNormSq rnd dim x)) * lib.cosh (rnd (x 0 / alpha)))))) - eps))) := by
    have : (test (flNormSq rnd dim x ≥ alphaSq) || test (flNormSq rnd dim y ≥ alphaSq)) = false := by simp [test, hx1, hy1]
    simp only [c, causalityDSFl, this, Bool.false_eq_true, if_false]
  -- the squares and the sums
  have s1 := near_sq hl p1 p2 hX
  have s2 := near_sq hl q1 q2 hX
  have s3 := flSpaceSq_near hr dim x y hx4 hy4 hn2
  obtain ⟨s4, s5⟩ := spaceSq_bound dim x y hx4 hy4
  have s6 := near_add s3 s2
  set X := curvedErrX n A H T s
  have s7 : (dSEmbed dim alpha y dim - dSEmbed dim alpha x dim) ^ 2 ≤ 4 * (A * H) ^ 2 := by
    rw [← sq_abs]
    calc |dSEmbed dim alpha y dim - dSEmbed dim alpha x dim| ^ 2 ≤ (2 * A * H) ^ 2 := pow_le_pow_left₀ (abs_nonneg _) q2 2
      _ = 4 * (A * H) ^ 2 := by ring
  have s8 : A ^ 2 ≤ (A * H) ^ 2 := pow_le_pow_left₀ (by linarith) (le_mul_of_one_le_right (by linarith) hH) 2
  have s9 : 0 ≤ (dSEmbed dim alpha y dim - dSEmbed dim alpha x dim) ^ 2 := sq_nonneg _
  have bX : 0 ≤ (4 * A * H + 1) * X := mul_nonneg (by linarith) hX0
  have b2 : 0 ≤ (2 * A * H + 1) ^ 2 := sq_nonneg _
  have bs : 0 ≤ (4 * n + 6) * (4 * A ^ 2 + n + 1) := by positivity
  have key : ∀ e, e ≤ curvedErr n A H T s → e * ulp ≤ 1 := fun e he => (mul_le_mul_of_nonneg_right he hu.le).trans hE
  have t1 := near_rnd hr s6 (B := 8 * (A * H) ^ 2) (by rw [abs_of_nonneg (by linarith)]; linarith) (key _ (by
    unfold curvedErr
    rw [show 2 * (2 * A * H) + 1 = 4 * A * H + 1 by ring]
    linarith [sq_nonneg (A * H)]))
  have t2 := near_sub t1 (show |eps - eps| ≤ 0 * ulp by simp)
  have t3 := near_rnd hr t2 (B := 8 * (A * H) ^ 2 + 1) (by rw [abs_le]; constructor <;> linarith) (key _ (by
    unfold curvedErr
    rw [show 2 * (2 * A * H) + 1 = 4 * A * H + 1 by ring]
    linarith [sq_nonneg (A * H)]))
  have t4 := near_sub s1 t3
  have hg : g = X * ulp := eu _
  have hE' : E = curvedErr n A H T s * ulp := eu _
  rw [hc]
  refine answers_near (dl := dt) (by rw [hg]; exact p1) ?_
  have : I + eps = (dSEmbed dim alpha y 0 - dSEmbed dim alpha x 0) ^ 2 - (spaceSq dim x y + (dSEmbed dim alpha y dim - dSEmbed dim alpha x dim) ^ 2 - eps) := by
    simp only [I, dt]
    rw [dSEmbed_spaceSq hdim]; ring
  rw [this, hE']
  refine t4.trans (le_of_eq ?_)
  unfold curvedErr
  ring

/-! ## anti-de Sitter -/

/-- **Specification.** The two time coordinates of a point of anti-de Sitter spacetime of radius `alpha` in the ambient space with two times (the space coordinates are those of the point). -/
noncomputable def adSTimes (dim : ℕ) (alpha : ℝ) (x : Point) : ℝ × ℝ :=
  let amp := Real.sqrt (alpha ^ 2 + ∑ i ∈ Finset.Ico 1 dim, (x i) ^ 2)
  (amp * Real.sin (x 0 / alpha), amp * Real.cos (x 0 / alpha))

/-- the embedded points lie on the hyperboloid of radius `alpha` -/
theorem adSTimes_hyperboloid (dim : ℕ) (alpha : ℝ) (x : Point) :
    (adSTimes dim alpha x).1 ^ 2 + (adSTimes dim alpha x).2 ^ 2 - ∑ i ∈ Finset.Ico 1 dim, (x i) ^ 2 = alpha ^ 2 := by
  have h : Real.sqrt (alpha ^ 2 + ∑ i ∈ Finset.Ico 1 dim, (x i) ^ 2) ^ 2 = alpha ^ 2 + ∑ i ∈ Finset.Ico 1 dim, (x i) ^ 2 :=
    Real.sq_sqrt (add_nonneg (sq_nonneg _) (Finset.sum_nonneg fun i _ => sq_nonneg _))
  have h2 := Real.sin_sq_add_cos_sq (x 0 / alpha)
  unfold adSTimes
  dsimp only
  rw [mul_pow, mul_pow, h]
  linear_combination (alpha ^ 2 + ∑ i ∈ Finset.Ico 1 dim, (x i) ^ 2) * h2

/-- **C104, accuracy in anti-de Sitter spacetime.** The same for anti-de Sitter spacetime, for points with `alpha² + r² ≤ A²`, `alpha ≥ s` and `|t / alpha| ≤ T`, with the interval of the ambient
space with two times. (This is what the function computes; it is not the causal order, see C44.) -/
theorem C104_antiDeSitter (hr : IsRounding rnd) (lib : MathLib) (hl : lib.Accurate) (eps : ℝ) (he0 : 0 ≤ eps) (he1 : eps ≤ 1) (dim : ℕ) (alpha alphaSq : ℝ)
    (ha2 : |alphaSq - alpha ^ 2| ≤ 2 * ulp * (alpha ^ 2 + 1)) (A T s : ℝ) (hA : 1 ≤ A) (hs : 0 < s) (hsa : s ^ 2 ≤ alpha ^ 2) (x y : Point)
    (hx : alpha ^ 2 + ∑ i ∈ Finset.Ico 1 dim, (x i) ^ 2 ≤ A ^ 2 ∧ |x 0 / alpha| ≤ T)
    (hy : alpha ^ 2 + ∑ i ∈ Finset.Ico 1 dim, (y i) ^ 2 ≤ A ^ 2 ∧ |y 0 / alpha| ≤ T)
    (hd : curvedErrD (dim - 1 : ℕ) A / 2 ^ 53 ≤ s ^ 2 / 2) (hE : curvedErr (dim - 1 : ℕ) A 1 T s / 2 ^ 53 ≤ 1) :
    let c := causalityAdSFl rnd lib eps dim alpha alphaSq x y
    let dt := (adSTimes dim alpha y).1 - (adSTimes dim alpha x).1
    let I := dt ^ 2 + ((adSTimes dim alpha y).2 - (adSTimes dim alpha x).2) ^ 2 - spaceSq dim x y
    let g := curvedErrX (dim - 1 : ℕ) A 1 T s / 2 ^ 53
    let E := curvedErr (dim - 1 : ℕ) A 1 T s / 2 ^ 53
    (c.1 = true → -g ≤ dt ∧ -(eps + E) ≤ I) ∧ (c.2 = true → dt ≤ g ∧ -(eps + E) ≤ I) ∧ (E - eps ≤ I → c.1 = true ∨ c.2 = true) ∧
    (E - eps ≤ I → g ≤ dt → c.1 = true) ∧ (E - eps ≤ I → dt < -g → c.2 = true) := by
  intro c dt I g E
  have hu := ulp_pos
  have eu : ∀ z : ℝ, z / 2 ^ 53 = z * ulp := fun z => by unfold ulp; ring
  simp only [eu] at hd hE
  have hn : (0 : ℝ) ≤ ((dim - 1 : ℕ) : ℝ) := Nat.cast_nonneg _
  set n : ℝ := ((dim - 1 : ℕ) : ℝ)
  have hT : 0 ≤ T := (abs_nonneg _).trans hx.2
  obtain ⟨hn2, hX, hX0⟩ := sum_small hn hA le_rfl hT hs hE
  have hs2 : 0 < s ^ 2 := by positivity
  have amp : ∀ z : Point, alpha ^ 2 + ∑ i ∈ Finset.Ico 1 dim, (z i) ^ 2 ≤ A ^ 2 →
      |rnd (alphaSq + flNormSq rnd dim z) - (alpha ^ 2 + ∑ i ∈ Finset.Ico 1 dim, (z i) ^ 2)| ≤ curvedErrD n A * ulp ∧
      (s ^ 2 ≤ alpha ^ 2 + ∑ i ∈ Finset.Ico 1 dim, (z i) ^ 2 ∧ alpha ^ 2 + ∑ i ∈ Finset.Ico 1 dim, (z i) ^ 2 ≤ A ^ 2) ∧ ∑ i ∈ Finset.Ico 1 dim, (z i) ^ 2 ≤ A ^ 2 := by
    intro z hz
    have b0 : 0 ≤ ∑ i ∈ Finset.Ico 1 dim, (z i) ^ 2 := Finset.sum_nonneg fun i _ => sq_nonneg _
    have b1 : ∑ i ∈ Finset.Ico 1 dim, (z i) ^ 2 ≤ A ^ 2 := by linarith [sq_nonneg alpha]
    have b2 := flNormSq_near hr dim z b1 hn2
    have b3 : |alphaSq - alpha ^ 2| ≤ (2 * (A ^ 2 + 1)) * ulp := by
      refine ha2.trans ?_
      nlinarith
    have b4 := near_add b3 b2
    have b5 : |alpha ^ 2 + ∑ i ∈ Finset.Ico 1 dim, (z i) ^ 2| ≤ A ^ 2 := by rw [abs_of_nonneg (by linarith)]; linarith
    have b7 : (2 * (A ^ 2 + 1) + (4 * n + 6) * (A ^ 2 + n + 1)) * ulp ≤ 1 := by
      refine le_trans (mul_le_mul_of_nonneg_right ?_ hu.le) hE
      unfold curvedErr
      have c1 : 0 ≤ (4 * A * 1 + 1) * curvedErrX n A 1 T s := mul_nonneg (by linarith) hX0
      have c2 : 0 ≤ (2 * A * 1 + 1) ^ 2 := sq_nonneg _
      have c3 : (4 * n + 6) * (A ^ 2 + n + 1) ≤ (4 * n + 6) * (4 * A ^ 2 + n + 1) := mul_le_mul_of_nonneg_left (by nlinarith) (by positivity)
      nlinarith [sq_nonneg A]
    have b8 := near_rnd hr b4 b5 b7
    refine ⟨b8.trans (le_of_eq ?_), ⟨by linarith, by linarith⟩, b1⟩
    unfold curvedErrD; ring
  obtain ⟨hx2, hx3, hx4⟩ := amp x hx.1
  obtain ⟨hy2, hy3, hy4⟩ := amp y hy.1
  obtain ⟨p1, p2⟩ := coord_near hr hl hl.sin hn hs hA le_rfl hT hx3 hy3 hx2 hy2 hd hX ⟨Real.abs_sin_le_one _, hx.2⟩ ⟨Real.abs_sin_le_one _, hy.2⟩
    (fun v hv u hu => (Real.abs_sin_sub_sin_le u v).trans (by linarith [abs_nonneg (u - v)]))
  obtain ⟨q1, q2⟩ := coord_near hr hl hl.cos hn hs hA le_rfl hT hx3 hy3 hx2 hy2 hd hX ⟨Real.abs_cos_le_one _, hx.2⟩ ⟨Real.abs_cos_le_one _, hy.2⟩
    (fun v hv u hu => (Real.abs_cos_sub_cos_le u v).trans (by linarith [abs_nonneg (u - v)]))
  change |_ - ((adSTimes dim alpha y).1 - (adSTimes dim alpha x).1)| ≤ _ at p1
  change |(adSTimes dim alpha y).1 - (adSTimes dim alpha x).1| ≤ _ at p2
  change |_ - ((adSTimes dim alpha y).2 - (adSTimes dim alpha x).2)| ≤ _ at q1
  change |(adSTimes dim alpha y).2 - (adSTimes dim alpha x).2| ≤ _ at q2
  have s1 := near_sq hl p1 p2 hX
  have s2 := near_sq hl q1 q2 hX
  have s3 := flSpaceSq_near hr dim x y hx4 hy4 hn2
  obtain ⟨s4, s5⟩ := spaceSq_bound dim x y hx4 hy4
  have s6 := near_add s1 s2
  set X := curvedErrX n A 1 T s
  have sq4 : ∀ z : ℝ, |z| ≤ 2 * A * 1 → z ^ 2 ≤ 4 * A ^ 2 := fun z hz => by
    rw [← sq_abs]
    calc |z| ^ 2 ≤ (2 * A * 1) ^ 2 := pow_le_pow_left₀ (abs_nonneg _) hz 2
      _ = 4 * A ^ 2 := by ring
  have r1 := sq4 _ p2
  have r2 := sq4 _ q2
  have r3 : 0 ≤ ((adSTimes dim alpha y).1 - (adSTimes dim alpha x).1) ^ 2 := sq_nonneg _
  have r4 : 0 ≤ ((adSTimes dim alpha y).2 - (adSTimes dim alpha x).2) ^ 2 := sq_nonneg _
  have bX : 0 ≤ (4 * A * 1 + 1) * X := mul_nonneg (by linarith) hX0
  have b2 : 0 ≤ (2 * A * 1 + 1) ^ 2 := sq_nonneg _
  have bs : 0 ≤ (4 * n + 6) * (4 * A ^ 2 + n + 1) := by positivity
  have bA := sq_nonneg A
  have key : ∀ e, e ≤ curvedErr n A 1 T s → e * ulp ≤ 1 := fun e he => (mul_le_mul_of_nonneg_right he hu.le).trans hE
  have t1 := near_rnd hr s6 (B := 8 * A ^ 2) (by rw [abs_of_nonneg (by linarith)]; linarith) (key _ (by
    unfold curvedErr
    rw [show 2 * (2 * A * 1) + 1 = 4 * A * 1 + 1 by ring, show (A * 1) ^ 2 = A ^ 2 by ring]
    linarith))
  have t2 := near_sub s3 (show |eps - eps| ≤ 0 * ulp by simp)
  have t3 := near_rnd hr t2 (B := 4 * A ^ 2 + 1) (by rw [abs_le]; constructor <;> linarith) (key _ (by
    unfold curvedErr
    rw [show (A * 1) ^ 2 = A ^ 2 by ring]
    linarith))
  have t4 := near_sub t1 t3
  have hg : g = X * ulp := eu _
  have hE' : E = curvedErr n A 1 T s * ulp := eu _
  refine answers_near (dl := dt) (by rw [hg]; exact p1) ?_
  have : I + eps = ((adSTimes dim alpha y).1 - (adSTimes dim alpha x).1) ^ 2 + ((adSTimes dim alpha y).2 - (adSTimes dim alpha x).2) ^ 2 - (spaceSq dim x y - eps) := by
    simp only [I, dt]; ring
  rw [this, hE']
  refine t4.trans ?_
  refine mul_le_mul_of_nonneg_right ?_ hu.le
  unfold curvedErr
  rw [show 2 * (2 * A * 1) + 1 = 4 * A * 1 + 1 by ring, show (A * 1) ^ 2 = A ^ 2 by ring]
  linarith

/-! ## the numbers of the code -/

theorem curvedErr_numbers {n H s : ℝ} (hn : 0 ≤ n) (hn3 : n ≤ 3) (hH : 1 ≤ H) (hH1 : H ≤ 155 / 100) (hs : 86 / 100 ≤ s) :
    curvedErrD n 1 ≤ 97 ∧ curvedErrX n 1 H 1 s ≤ 435 ∧ curvedErr n 1 H 1 s ≤ 6600 := by
  have d : curvedErrD n 1 ≤ 97 := by unfold curvedErrD; nlinarith
  have d0 : 0 ≤ curvedErrD n 1 := by unfold curvedErrD; positivity
  have ds : curvedErrD n 1 / s ≤ 113 := by rw [div_le_iff₀ (by linarith)]; nlinarith
  have ds0 : 0 ≤ curvedErrD n 1 / s := div_nonneg d0 (by linarith)
  have X : curvedErrX n 1 H 1 s ≤ 435 := by unfold curvedErrX; nlinarith
  have X0 : 0 ≤ curvedErrX n 1 H 1 s := by unfold curvedErrX; positivity
  refine ⟨d, X, ?_⟩
  unfold curvedErr
  have e1 : (4 * 1 * H + 1) * curvedErrX n 1 H 1 s ≤ (4 * 1 * (155 / 100) + 1) * 435 := mul_le_mul (by linarith) X X0 (by norm_num)
  have e2 : (2 * 1 * H + 1) ^ 2 ≤ (2 * 1 * (155 / 100) + 1) ^ 2 := pow_le_pow_left₀ (by linarith) (by linarith) 2
  have e3 : (1 * H) ^ 2 ≤ (155 / 100) ^ 2 := pow_le_pow_left₀ (by linarith) (by linarith) 2
  have e4 : (4 * n + 6) * (4 * 1 ^ 2 + n + 1) ≤ 18 * 8 := mul_le_mul (by linarith) (by linarith) (by linarith) (by norm_num)
  linarith

theorem cosh_one_le : Real.cosh 1 ≤ 155 / 100 := by
  rw [Real.cosh_eq]
  have h1 := Real.exp_one_lt_d9
  have h2 := Real.exp_one_gt_d9
  have h3 : Real.exp (-1) ≤ 37 / 100 := by
    rw [Real.exp_neg, inv_le_comm₀ (Real.exp_pos _) (by norm_num)]
    linarith
  linarith

/-- **C104, the numbers for de Sitter spacetime.** In de Sitter spacetime of radius 1 and at most four dimensions with the tolerance of the code (`1e-12`, rounded to binary64), for all points with
`|t| ≤ 1` and `r ≤ 1/2`: every causal pair gets an answer, with the right direction if the embedding times differ by at least `5e-14`; and an answer means that the pair is causal up to `2e-12`. -/
theorem C104_deSitter_numbers (hr : IsRounding rnd) (lib : MathLib) (hl : lib.Accurate) (dim : ℕ) (hdim : 1 ≤ dim) (hd4 : dim ≤ 4) (alphaSq : ℝ) (ha2 : |alphaSq - 1| ≤ 4 * ulp) (x y : Point)
    (hx : ∑ i ∈ Finset.Ico 1 dim, (x i) ^ 2 ≤ 1 / 4 ∧ |x 0| ≤ 1) (hy : ∑ i ∈ Finset.Ico 1 dim, (y i) ^ 2 ≤ 1 / 4 ∧ |y 0| ≤ 1) :
    let c := causalityDSFl rnd lib (rnd causalityEps) dim 1 alphaSq x y
    let dt := dSEmbed dim 1 y 0 - dSEmbed dim 1 x 0
    let I := dt ^ 2 - spaceSq (dim + 1) (dSEmbed dim 1 x) (dSEmbed dim 1 y)
    (0 ≤ I → c.1 = true ∨ c.2 = true) ∧ (0 ≤ I → 5 / 10 ^ 14 ≤ dt → c.1 = true) ∧ (c.1 = true → -(5 / 10 ^ 14) ≤ dt ∧ -(2 / 10 ^ 12) ≤ I) := by
  intro c dt I
  obtain ⟨b1, b2⟩ := eps_bounds hr
  have hn : (0 : ℝ) ≤ ((dim - 1 : ℕ) : ℝ) := Nat.cast_nonneg _
  have hn3 : ((dim - 1 : ℕ) : ℝ) ≤ 3 := by exact_mod_cast (by omega : dim - 1 ≤ 3)
  have hs : (86 / 100 : ℝ) ≤ Real.sqrt (3 / 4) := Real.le_sqrt_of_sq_le (by norm_num)
  have hss : Real.sqrt (3 / 4) ^ 2 = 3 / 4 := Real.sq_sqrt (by norm_num)
  obtain ⟨n1, n2, n3⟩ := curvedErr_numbers hn hn3 (H := 155 / 100) (by norm_num) le_rfl hs
  have hc : ∀ z : ℝ, |z| ≤ 1 → Real.cosh (z / 1) ≤ 155 / 100 := fun z hz => by
    rw [div_one]
    refine le_trans ?_ cosh_one_le
    rw [Real.cosh_le_cosh, abs_one]; exact hz
  have := C104_deSitter hr lib hl (rnd causalityEps) (by linarith) (by linarith) dim hdim 1 alphaSq (by rw [one_pow]; linarith) 1 (155 / 100) 1 (Real.sqrt (3 / 4)) le_rfl le_rfl
    (by linarith) x y ⟨by rw [hss]; linarith [hx.1], by rw [div_one]; exact hx.2, hc _ hx.2⟩ ⟨by rw [hss]; linarith [hy.1], by rw [div_one]; exact hy.2, hc _ hy.2⟩
    (by rw [hss]; have : curvedErrD ((dim - 1 : ℕ) : ℝ) 1 / 2 ^ 53 ≤ 97 / 2 ^ 53 := div_le_div_of_nonneg_right n1 (by norm_num)
        exact this.trans (by norm_num))
    (by have : curvedErr ((dim - 1 : ℕ) : ℝ) 1 (155 / 100) 1 (Real.sqrt (3 / 4)) / 2 ^ 53 ≤ 6600 / 2 ^ 53 := div_le_div_of_nonneg_right n3 (by norm_num)
        exact this.trans (by norm_num))
  have g1 : curvedErrX ((dim - 1 : ℕ) : ℝ) 1 (155 / 100) 1 (Real.sqrt (3 / 4)) / 2 ^ 53 ≤ 5 / 10 ^ 14 :=
    (div_le_div_of_nonneg_right n2 (by norm_num)).trans (by norm_num)
  have g2 : curvedErr ((dim - 1 : ℕ) : ℝ) 1 (155 / 100) 1 (Real.sqrt (3 / 4)) / 2 ^ 53 ≤ 8 / 10 ^ 13 :=
    (div_le_div_of_nonneg_right n3 (by norm_num)).trans (by norm_num)
  obtain ⟨a1, _, a3, a4, _⟩ := this
  refine ⟨fun h => a3 (le_trans (by linarith) h), fun h h' => a4 (le_trans (by linarith) h) (g1.trans h'), fun h => ?_⟩
  obtain ⟨z1, z2⟩ := a1 h
  exact ⟨by linarith, by linarith⟩

/-- a library without any error but the last rounding is accurate -/
noncomputable def exactLib (rnd : ℝ → ℝ) : MathLib :=
  ⟨fun z => rnd (Real.sqrt z), fun z => rnd (Real.sinh z), fun z => rnd (Real.cosh z), fun z => rnd (Real.sin z), fun z => rnd (Real.cos z), fun z => rnd (z ^ 2)⟩

theorem exactLib_accurate (hr : IsRounding rnd) : (exactLib rnd).Accurate := by
  have key : ∀ z, |rnd z - z| ≤ 2 * ulp * (|z| + 1) := fun z => (hr.err' z).trans (by nlinarith [ulp_pos, abs_nonneg z, mul_nonneg ulp_pos.le (abs_nonneg z)])
  refine ⟨fun z _ => ?_, fun z => key _, fun z => key _, fun z => key _, fun z => key _, fun z => ?_⟩
  · have := key (Real.sqrt z); rwa [abs_of_nonneg (Real.sqrt_nonneg z)] at this
  · have := key (z ^ 2); rwa [abs_of_nonneg (sq_nonneg z)] at this

/-- the hypotheses of `C104_deSitter_numbers` are met: the origin precedes a later point of a two-dimensional de Sitter spacetime -/
example : (causalityDSFl rnd64 (exactLib rnd64) (rnd64 causalityEps) 2 1 1 (lineP 0 0) (lineP 1 0)).1 = true := by
  have h : dSEmbed 2 1 (lineP 1 0) 0 - dSEmbed 2 1 (lineP 0 0) 0 = Real.sinh 1 := by simp [dSEmbed, lineP]
  have hs : (1 : ℝ) ≤ Real.sinh 1 := Real.self_le_sinh_iff.2 (by norm_num)
  refine (C104_deSitter_numbers C104_ieee _ (exactLib_accurate C104_ieee) 2 (by norm_num) (by norm_num) 1 (by simp [ulp_pos.le]) (lineP 0 0) (lineP 1 0)
    (by simp [lineP]) (by simp [lineP])).2.1 ?_ ?_
  · rw [h]
    have : spaceSq (2 + 1) (dSEmbed 2 1 (lineP 0 0)) (dSEmbed 2 1 (lineP 1 0)) = (Real.cosh 1 - 1) ^ 2 := by
      simp [spaceSq, dSEmbed, lineP, Finset.sum_Ico_succ_top]
    rw [this]
    have := Real.cosh_sq 1
    have := Real.one_le_cosh 1
    nlinarith
  · rw [h]; linarith

/-- the hypotheses of `C104_antiDeSitter` are met in two dimensions for `alpha = 1`, `r ≤ 1`, `|t| ≤ 3` -/
example : curvedErrD (2 - 1 : ℕ) (3 / 2) / 2 ^ 53 ≤ (1 : ℝ) ^ 2 / 2 ∧ curvedErr (2 - 1 : ℕ) (3 / 2) 1 3 1 / 2 ^ 53 ≤ 1 := by
  unfold curvedErr curvedErrX curvedErrD
  norm_num

end Causets
