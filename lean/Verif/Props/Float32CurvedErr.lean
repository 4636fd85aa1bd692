import Verif.Model.Float32Curved
import Verif.Props.FloatCurved
import Verif.Props.Float32Period

/-! # Error analysis of the causality functions of curved spacetimes in single precision -/

namespace Causets

/-- the functions of the mathematical library have an error of at most `2 u` of a number of size `|f z| + 1` -/
structure MathLib.AccurateTo (lib : MathLib) (u : ℝ) : Prop where
  sqrt : ∀ z, 0 ≤ z → |lib.sqrt z - Real.sqrt z| ≤ 2 * u * (Real.sqrt z + 1)
  sinh : ∀ z, |lib.sinh z - Real.sinh z| ≤ 2 * u * (|Real.sinh z| + 1)
  cosh : ∀ z, |lib.cosh z - Real.cosh z| ≤ 2 * u * (|Real.cosh z| + 1)
  sin : ∀ z, |lib.sin z - Real.sin z| ≤ 2 * u * (|Real.sin z| + 1)
  cos : ∀ z, |lib.cos z - Real.cos z| ≤ 2 * u * (|Real.cos z| + 1)
  sq : ∀ z, |lib.sq z - z ^ 2| ≤ 2 * u * (z ^ 2 + 1)

theorem MathLib.Accurate.to {lib : MathLib} (h : lib.Accurate) {u : ℝ} (hu : ulp ≤ u) : lib.AccurateTo u where
  sqrt z hz := (h.sqrt z hz).trans (mul_le_mul_of_nonneg_right (by linarith) (by have := Real.sqrt_nonneg z; linarith))
  sinh z := (h.sinh z).trans (mul_le_mul_of_nonneg_right (by linarith) (by positivity))
  cosh z := (h.cosh z).trans (mul_le_mul_of_nonneg_right (by linarith) (by positivity))
  sin z := (h.sin z).trans (mul_le_mul_of_nonneg_right (by linarith) (by positivity))
  cos z := (h.cos z).trans (mul_le_mul_of_nonneg_right (by linarith) (by positivity))
  sq z := (h.sq z).trans (mul_le_mul_of_nonneg_right (by linarith) (by positivity))

variable {rnd r32 mix : ℝ → ℝ} {u : ℝ} (hu0 : 0 < u) (hus : u ≤ 1 / 1000000)
include hu0

theorem near_rndU (hr : RoundErr rnd u 1) {a b e B : ℝ} (h : |a - b| ≤ e * u) (hB : |b| ≤ B) (he : e * u ≤ 1) : |rnd a - b| ≤ (e + B + 2) * u := by
  have h1 := hr.err a
  have h2 := abs_sub_le (rnd a) a b
  have h3 : |a| ≤ B + 1 := by
    have := abs_sub_abs_le_abs_sub a b
    linarith
  have := mul_le_mul_of_nonneg_left (add_le_add_left h3 1) hu0.le
  nlinarith

omit hu0 in
theorem near_mulU {a b c d e f B D : ℝ} (h : |a - b| ≤ e * u) (h' : |c - d| ≤ f * u) (hB : |b| ≤ B) (hD : |d| ≤ D) (he : e * u ≤ 1) :
    |a * c - b * d| ≤ ((B + 1) * f + D * e) * u := by
  have e1 : a * c - b * d = a * (c - d) + (a - b) * d := by ring
  rw [e1]
  refine (abs_add_le _ _).trans ?_
  rw [abs_mul, abs_mul]
  have h3 : |a| ≤ B + 1 := by
    have := abs_sub_abs_le_abs_sub a b
    linarith
  have h4 : |a| * |c - d| ≤ (B + 1) * (f * u) := mul_le_mul h3 h' (abs_nonneg _) (le_trans (abs_nonneg _) h3)
  have h5 : |a - b| * |d| ≤ (e * u) * D := mul_le_mul h hD (abs_nonneg _) (le_trans (abs_nonneg _) h)
  linarith

theorem near_sqU {lib : MathLib} (hl : lib.AccurateTo u) {a b e B : ℝ} (h : |a - b| ≤ e * u) (hB : |b| ≤ B) (he : e * u ≤ 1) :
    |lib.sq a - b ^ 2| ≤ ((2 * B + 1) * e + 2 * (B + 1) ^ 2 + 2) * u := by
  have h0 := abs_nonneg b
  have h1 := hl.sq a
  have h2 := near_mulU h h hB hB he
  have h3 := abs_sub_le (lib.sq a) (a ^ 2) (b ^ 2)
  have h4 : |a| ≤ B + 1 := by
    have := abs_sub_abs_le_abs_sub a b
    linarith
  have h5 : a ^ 2 ≤ (B + 1) ^ 2 := by rw [← sq_abs a]; exact pow_le_pow_left₀ (abs_nonneg _) h4 2
  rw [show a * a = a ^ 2 by ring, show b * b = b ^ 2 by ring] at h2
  have h6 := mul_le_mul_of_nonneg_left (add_le_add_left h5 1) (by linarith [hu0] : 0 ≤ 2 * u)
  linarith

omit hu0 in
theorem near_subU {a b c d e f : ℝ} (h : |a - b| ≤ e * u) (h' : |c - d| ≤ f * u) : |(a - c) - (b - d)| ≤ (e + f) * u := by
  rw [show (a - c) - (b - d) = (a - b) - (c - d) by ring]
  refine (abs_sub _ _).trans ?_
  linarith

omit hu0 in
theorem near_addU {a b c d e f : ℝ} (h : |a - b| ≤ e * u) (h' : |c - d| ≤ f * u) : |(a + c) - (b + d)| ≤ (e + f) * u := by
  rw [show (a + c) - (b + d) = (a - b) + (c - d) by ring]
  refine (abs_add_le _ _).trans ?_
  linarith


/-! ## sums -/

include hus in
theorem normSq_nearU (h32 : RoundErr r32 u 1) (hm : RoundErr mix u 1) (dim : ℕ) (x : Point) {A : ℝ} (hx : ∑ i ∈ Finset.Ico 1 dim, (x i) ^ 2 ≤ A ^ 2) (hn : ((dim - 1 : ℕ) : ℝ) * (2 * u) ≤ 1) :
    |flSum mix ((List.range' 1 (dim - 1)).map fun i => r32 (x i ^ 2)) - ∑ i ∈ Finset.Ico 1 dim, (x i) ^ 2| ≤
      ((4 * ((dim - 1 : ℕ) : ℝ) + 6) * (A ^ 2 + ((dim - 1 : ℕ) : ℝ) + 1)) * u := by
  have h := hm.sum_near hu0 hus one_pos le_rfl (List.range' 1 (dim - 1)) (fun i => r32 (x i ^ 2)) (fun i => x i ^ 2)
    (fun i _ => h32.nonneg _ (sq_nonneg _)) (fun i _ => sq_nonneg _) (fun i _ => by
      have := h32.err (x i ^ 2)
      rw [abs_of_nonneg (sq_nonneg (x i))] at this
      have h2 : 0 ≤ u * (x i ^ 2 + 1) := by positivity
      linarith) (by simpa using hn)
  rw [← sum_Ico_list (fun i => x i ^ 2), List.length_range'] at h
  refine h.trans ?_
  have hn0 : (0 : ℝ) ≤ ((dim - 1 : ℕ) : ℝ) := Nat.cast_nonneg _
  have : (4 * ((dim - 1 : ℕ) : ℝ) + 6) * u * (∑ i ∈ Finset.Ico 1 dim, (x i) ^ 2 + (((dim - 1 : ℕ) : ℝ) + 1) * 1) ≤
      (4 * ((dim - 1 : ℕ) : ℝ) + 6) * u * (A ^ 2 + ((dim - 1 : ℕ) : ℝ) + 1) := mul_le_mul_of_nonneg_left (by linarith) (by positivity)
  linarith

include hus in
theorem spaceSq_nearU (h32 : RoundErr r32 u 1) (hm : RoundErr mix u 1) (dim : ℕ) (x y : Point) {A : ℝ} (hx : ∑ i ∈ Finset.Ico 1 dim, (x i) ^ 2 ≤ A ^ 2)
    (hy : ∑ i ∈ Finset.Ico 1 dim, (y i) ^ 2 ≤ A ^ 2) (hn : ((dim - 1 : ℕ) : ℝ) * (2 * u) ≤ 1) :
    |flSum mix ((List.range' 1 (dim - 1)).map fun i => r32 (r32 (y i - x i) ^ 2)) - spaceSq dim x y| ≤
      ((4 * ((dim - 1 : ℕ) : ℝ) + 6) * (4 * A ^ 2 + ((dim - 1 : ℕ) : ℝ) + 1)) * u := by
  have h := hm.sum_near hu0 hus one_pos le_rfl (List.range' 1 (dim - 1)) (fun i => r32 (r32 (y i - x i) ^ 2)) (fun i => (y i - x i) ^ 2)
    (fun i _ => h32.nonneg _ (sq_nonneg _)) (fun i _ => sq_nonneg _) (fun i _ => h32.sq_err hu0 hus one_pos le_rfl _) (by simpa using hn)
  rw [← sum_Ico_list (fun i => (y i - x i) ^ 2), List.length_range'] at h
  refine h.trans ?_
  have hb := (spaceSq_bound dim x y hx hy).2
  unfold spaceSq at hb
  have hn0 : (0 : ℝ) ≤ ((dim - 1 : ℕ) : ℝ) := Nat.cast_nonneg _
  have : (4 * ((dim - 1 : ℕ) : ℝ) + 6) * u * (∑ i ∈ Finset.Ico 1 dim, (y i - x i) ^ 2 + (((dim - 1 : ℕ) : ℝ) + 1) * 1) ≤
      (4 * ((dim - 1 : ℕ) : ℝ) + 6) * u * (4 * A ^ 2 + ((dim - 1 : ℕ) : ℝ) + 1) := mul_le_mul_of_nonneg_left (by linarith) (by positivity)
  linarith


/-! ## an embedding coordinate -/

/-- the amplitude -/
theorem amp_nearU {lib : MathLib} (hl : lib.AccurateTo u) {Dh D d A s : ℝ} (hs : 0 < s) (hD : s ^ 2 ≤ D) (hDA : D ≤ A ^ 2) (hA : 0 ≤ A) (h : |Dh - D| ≤ d * u) (hd : d * u ≤ s ^ 2 / 2)
    (hds : d / s * u ≤ 1) : |lib.sqrt Dh - Real.sqrt D| ≤ (d / s + 2 * A + 4) * u := by
  have h0 : 0 ≤ Dh := by have := abs_le.1 h; nlinarith [sq_nonneg s]
  have h1 := near_sqrt h0 hs hD
  have h2 := hl.sqrt Dh h0
  have h3 := abs_sub_le (lib.sqrt Dh) (Real.sqrt Dh) (Real.sqrt D)
  have h4 : |Dh - D| / s ≤ d / s * u := by
    rw [show d / s * u = d * u / s by ring]
    exact div_le_div_of_nonneg_right h hs.le
  have h5 : Real.sqrt D ≤ A := Real.sqrt_le_iff.2 ⟨hA, hDA⟩
  have h6 : Real.sqrt Dh ≤ A + 1 := by have := (abs_le.1 h1).2; linarith
  have := mul_le_mul_of_nonneg_left (add_le_add_left h6 1) (by linarith [hu0] : 0 ≤ 2 * u)
  linarith

/-- the value of a hyperbolic or trigonometric function -/
theorem trig_nearU {f F : ℝ → ℝ} (hf : ∀ z, |f z - F z| ≤ 2 * u * (|F z| + 1)) {v vh H T : ℝ} (hH : |F v| ≤ H) (hH1 : 1 ≤ H) (hT0 : 0 ≤ T) (h1 : |vh - v| ≤ (T + 1) * u)
    (hlip : ∀ q, |q - v| ≤ 1 → |F q - F v| ≤ 2 * H * |q - v|) (hs : 2 * H * (T + 1) * u ≤ 1) : |f vh - F v| ≤ (2 * H * (T + 1) + 2 * H + 4) * u := by
  have hu := hu0
  have h2 : |vh - v| ≤ 1 := by
    refine h1.trans (le_trans ?_ hs)
    have : 0 ≤ (T + 1) * u := by positivity
    nlinarith
  have h3 : |F vh - F v| ≤ 2 * H * (T + 1) * u := by
    refine (hlip _ h2).trans ?_
    have := mul_le_mul_of_nonneg_left h1 (by linarith : 0 ≤ 2 * H)
    linarith
  have h4 : |F vh| ≤ H + 1 := by
    have := abs_sub_abs_le_abs_sub (F vh) (F v)
    linarith
  have h5 := hf vh
  have h6 := abs_sub_le (f vh) (F vh) (F v)
  have := mul_le_mul_of_nonneg_left (add_le_add_left h4 1) (by linarith : 0 ≤ 2 * u)
  linarith

/-- the difference of an embedding coordinate -/
theorem coord_nearU (hr : RoundErr rnd u 1) {lib : MathLib} (hl : lib.AccurateTo u) {f F : ℝ → ℝ} (hf : ∀ z, |f z - F z| ≤ 2 * u * (|F z| + 1)) {n A H T s : ℝ} (hn : 0 ≤ n) (hs : 0 < s) (hA : 1 ≤ A)
    (hH : 1 ≤ H) (hT0 : 0 ≤ T) {Dhx Dhy Dx Dy vx vy vhx vhy : ℝ}
    (hDx : s ^ 2 ≤ Dx ∧ Dx ≤ A ^ 2) (hDy : s ^ 2 ≤ Dy ∧ Dy ≤ A ^ 2) (hx : |Dhx - Dx| ≤ curvedErrD n A * u) (hy : |Dhy - Dy| ≤ curvedErrD n A * u)
    (hd : curvedErrD n A * u ≤ s ^ 2 / 2) (hX : curvedErrX n A H T s * u ≤ 1) (hvx : |F vx| ≤ H ∧ |vhx - vx| ≤ (T + 1) * u) (hvy : |F vy| ≤ H ∧ |vhy - vy| ≤ (T + 1) * u)
    (hlip : ∀ v ∈ [vx, vy], ∀ q, |q - v| ≤ 1 → |F q - F v| ≤ 2 * H * |q - v|) :
    |rnd (rnd (lib.sqrt Dhy * f vhy) - rnd (lib.sqrt Dhx * f vhx)) - (Real.sqrt Dy * F vy - Real.sqrt Dx * F vx)| ≤ curvedErrX n A H T s * u ∧
    |Real.sqrt Dy * F vy - Real.sqrt Dx * F vx| ≤ 2 * A * H := by
  have hu := hu0
  have hd0 : 0 ≤ curvedErrD n A := by unfold curvedErrD; positivity
  have hds : 0 ≤ curvedErrD n A / s := by positivity
  have hAH : 1 ≤ A * H := one_le_mul_of_one_le_of_one_le hA hH
  have hHT : 0 ≤ H * T := by positivity
  -- the parts of the error
  have key : ∀ e, e ≤ curvedErrX n A H T s → e * u ≤ 1 := fun e he => (mul_le_mul_of_nonneg_right he hu.le).trans hX
  have hHq : curvedErrD n A / s + 2 * A + 4 ≤ H * (curvedErrD n A / s + 2 * A + 4) := le_mul_of_one_le_left (by positivity) hH
  have hAq : 2 * H * (T + 1) + 2 * H + 4 ≤ (A + 1) * (2 * H * (T + 1) + 2 * H + 4) := le_mul_of_one_le_left (by positivity) (by linarith)
  have hq1 : 0 ≤ 2 * H * (T + 1) := by positivity
  have k1 : curvedErrD n A / s * u ≤ 1 := key _ (by unfold curvedErrX; linarith)
  have k2 : 2 * H * (T + 1) * u ≤ 1 := key _ (by unfold curvedErrX; linarith)
  have k3 : (curvedErrD n A / s + 2 * A + 4) * u ≤ 1 := key _ (by unfold curvedErrX; linarith)
  have k4 : ((A + 1) * (2 * H * (T + 1) + 2 * H + 4) + H * (curvedErrD n A / s + 2 * A + 4)) * u ≤ 1 := key _ (by unfold curvedErrX; linarith)
  have one : ∀ {Dh D v vh : ℝ}, s ^ 2 ≤ D ∧ D ≤ A ^ 2 → |Dh - D| ≤ curvedErrD n A * u → |F v| ≤ H ∧ |vh - v| ≤ (T + 1) * u → (∀ q, |q - v| ≤ 1 → |F q - F v| ≤ 2 * H * |q - v|) →
      |rnd (lib.sqrt Dh * f vh) - Real.sqrt D * F v| ≤ ((A + 1) * (2 * H * (T + 1) + 2 * H + 4) + H * (curvedErrD n A / s + 2 * A + 4) + A * H + 2) * u ∧
      |Real.sqrt D * F v| ≤ A * H := by
    intro Dh D v vh hD h hv hl'
    have a1 := amp_nearU hu0 hl hs hD.1 hD.2 (by linarith) h hd k1
    have a2 := trig_nearU hu0 hf hv.1 hH hT0 hv.2 hl' k2
    have a3 : |Real.sqrt D| ≤ A := by rw [abs_of_nonneg (Real.sqrt_nonneg _)]; exact Real.sqrt_le_iff.2 ⟨by linarith, hD.2⟩
    have a4 := near_mulU a1 a2 a3 hv.1 k3
    have a5 : |Real.sqrt D * F v| ≤ A * H := by rw [abs_mul]; exact mul_le_mul a3 hv.1 (abs_nonneg _) (by linarith)
    exact ⟨near_rndU hu0 hr a4 a5 k4, a5⟩
  obtain ⟨b1, b2⟩ := one hDx hx hvx (hlip vx (by simp))
  obtain ⟨c1, c2⟩ := one hDy hy hvy (hlip vy (by simp))
  have e1 := near_subU c1 b1
  have e2 : |Real.sqrt Dy * F vy - Real.sqrt Dx * F vx| ≤ 2 * A * H := by
    refine (abs_sub _ _).trans ?_
    linarith
  refine ⟨?_, e2⟩
  have := near_rndU hu0 hr e1 e2 (key _ (by unfold curvedErrX; linarith))
  unfold curvedErrX
  refine this.trans (le_of_eq ?_)
  ring

theorem sum_smallU {n A H T s : ℝ} (hn : 0 ≤ n) (hA : 1 ≤ A) (hH : 1 ≤ H) (hT : 0 ≤ T) (hs : 0 < s) (hE : curvedErr n A H T s * u ≤ 1) :
    n * (2 * u) ≤ 1 ∧ curvedErrX n A H T s * u ≤ 1 ∧ 0 ≤ curvedErrX n A H T s := by
  have hu := hu0
  have hd0 : 0 ≤ curvedErrD n A := by unfold curvedErrD; positivity
  have hX : 0 ≤ curvedErrX n A H T s := by unfold curvedErrX; positivity
  have key : ∀ e, e ≤ curvedErr n A H T s → e * u ≤ 1 := fun e he => (mul_le_mul_of_nonneg_right he hu.le).trans hE
  have hAH : 1 ≤ A * H := one_le_mul_of_one_le_of_one_le hA hH
  have h1 : curvedErrX n A H T s ≤ (4 * A * H + 1) * curvedErrX n A H T s := le_mul_of_one_le_left hX (by linarith)
  have h2 : 0 ≤ (2 * A * H + 1) ^ 2 := sq_nonneg _
  have h3 : 0 ≤ (A * H) ^ 2 := sq_nonneg _
  have h4 : 2 * n ≤ (4 * n + 6) * (4 * A ^ 2 + n + 1) := by nlinarith [sq_nonneg A, sq_nonneg n]
  have h5 : 0 ≤ (4 * n + 6) * (4 * A ^ 2 + n + 1) := by positivity
  refine ⟨?_, key _ (by unfold curvedErr; linarith), hX⟩
  have := key (2 * n) (by unfold curvedErr; linarith)
  linarith

end Causets
