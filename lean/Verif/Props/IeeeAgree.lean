import Verif.Props.IeeeCurved
import Verif.Props.FloatCurved

/-! # C116 — de Sitter and anti-de Sitter spacetime: no overflow for moderate numbers -/

namespace Causets

open NpReal

variable {rnd : ℝ → ℝ}

theorem spaceSqIeee_fin' (hr : IsRounding rnd) {dim k : ℕ} (hk : 2 * (k + 1) ≤ 1002) (hd : dim ≤ 2 ^ 20) {x y : Point} (hx : ∀ i, 1 ≤ i → i < dim → |x i| ≤ 2 ^ k)
    (hy : ∀ i, 1 ≤ i → i < dim → |y i| ≤ 2 ^ k) :
    spaceSqIeee rnd dim (fun i => fin (x i)) (fun i => fin (y i)) = fin (flSpaceSq rnd dim x y) ∧ |flSpaceSq rnd dim x y| ≤ 2 ^ (2 * (k + 1) + 20) := by
  refine sumF_fin hr hk (forall₂_map fun i hi => ?_) (by rw [List.length_map, List.length_range']; omega)
  have hi := List.mem_range'_1.1 hi
  obtain ⟨h1, h2⟩ := subF_fin hr (k := k) (by omega) (hy i (by omega) (by omega)) (hx i (by omega) (by omega))
  dsimp only
  rw [h1]
  exact sqF_fin hr (by omega) h2

theorem normSqIeee_fin' (hr : IsRounding rnd) {dim k : ℕ} (hk : 2 * k ≤ 1002) (hd : dim ≤ 2 ^ 20) {x : Point} (hx : ∀ i, 1 ≤ i → i < dim → |x i| ≤ 2 ^ k) :
    normSqIeee rnd dim (fun i => fin (x i)) = fin (flNormSq rnd dim x) ∧ |flNormSq rnd dim x| ≤ 2 ^ (2 * k + 20) := by
  refine sumF_fin hr hk (forall₂_map fun i hi => ?_) (by rw [List.length_map, List.length_range']; omega)
  have hi := List.mem_range'_1.1 hi
  exact sqF_fin hr (k := k) (by omega) (hx i (by omega) (by omega))

/-- a library function is at most twice as large -/
theorem lib_le_pow {f z : ℝ} {k : ℕ} (h : |f - z| ≤ 2 * ulp * (|z| + 1)) (hz : |z| ≤ 2 ^ k) : |f| ≤ 2 ^ (k + 1) := by
  have hu := ulp_small
  have h1 : |f| ≤ |z| + |f - z| := by
    have := abs_add_le z (f - z)
    simpa using this
  have h2 : (1 : ℝ) ≤ 2 ^ k := one_le_pow₀ (by norm_num)
  have h3 : 2 * ulp * (|z| + 1) ≤ 1 / 2 * (|z| + 1) := mul_le_mul_of_nonneg_right (by linarith) (by positivity)
  rw [pow_succ]
  generalize (2 : ℝ) ^ k = A at *
  linarith

theorem sq_le_pow {f z : ℝ} {k : ℕ} (h : |f - z ^ 2| ≤ 2 * ulp * (z ^ 2 + 1)) (hz : |z| ≤ 2 ^ k) : |f| ≤ 2 ^ (2 * k + 1) := by
  refine lib_le_pow (z := z ^ 2) (by rwa [abs_of_nonneg (sq_nonneg z)]) ?_
  rw [abs_pow, mul_comm, pow_mul]
  exact pow_le_pow_left₀ (abs_nonneg _) hz 2

theorem mulF_fin (hr : IsRounding rnd) {a b : ℝ} {j k : ℕ} (hjk : j + k < 1024) (ha : |a| ≤ 2 ^ j) (hb : |b| ≤ 2 ^ k) :
    mulF rnd (fin a) (fin b) = fin (rnd (a * b)) ∧ |rnd (a * b)| ≤ 2 ^ (j + k) := by
  have h : |rnd (a * b)| ≤ 2 ^ (j + k) := by
    refine hr.abs_le_pow ?_
    rw [abs_mul, pow_add]
    exact mul_le_mul ha hb (abs_nonneg _) (by positivity)
  exact ⟨cap_of_lt (h.trans_lt (pow_lt_huge hjk)), h⟩

theorem addF_fin (hr : IsRounding rnd) {a b : ℝ} {k : ℕ} (hk : k < 1023) (ha : |a| ≤ 2 ^ k) (hb : |b| ≤ 2 ^ k) :
    addF rnd (fin a) (fin b) = fin (rnd (a + b)) ∧ |rnd (a + b)| ≤ 2 ^ (k + 1) := by
  have h := hr.abs_le_pow (pow_add_le ha hb).1
  exact ⟨cap_of_lt (h.trans_lt (pow_lt_huge (by omega))), h⟩

theorem sqrt_le_pow {z : ℝ} {k : ℕ} (h : z ≤ 2 ^ (2 * k)) : |Real.sqrt z| ≤ 2 ^ k := by
  rw [abs_of_nonneg (Real.sqrt_nonneg z)]
  refine Real.sqrt_le_iff.2 ⟨by positivity, ?_⟩
  rw [← pow_mul, mul_comm]; exact h

theorem hyp_338 {z : ℝ} (h : |z| ≤ 338) : |Real.sinh z| ≤ 2 ^ 488 ∧ |Real.cosh z| ≤ 2 ^ 488 := by
  have h1 : Real.cosh z ≤ 2 ^ 488 := by
    rw [← Real.cosh_abs, Real.cosh_eq]
    have a1 : Real.exp |z| ≤ 2 ^ 488 := le_trans (Real.exp_le_exp.2 h) exp_338
    have a2 : Real.exp (-|z|) ≤ Real.exp |z| := Real.exp_le_exp.2 (by linarith [abs_nonneg z])
    generalize (2 : ℝ) ^ 488 = A at *
    linarith
  refine ⟨?_, by rwa [abs_of_pos (Real.cosh_pos z)]⟩
  rw [abs_le]
  have h2 := Real.sinh_lt_cosh z
  have h3 := Real.sinh_lt_cosh (-z)
  rw [Real.sinh_neg, Real.cosh_neg] at h3
  generalize (2 : ℝ) ^ 488 = A at *
  constructor <;> linarith

theorem mathSinh_ok {f : ℝ → ℝ} {a : ℝ} {k : ℕ} (hk : k < 1024) (h : |f a| ≤ 2 ^ k) : mathSinh f (fin a) = .ok (fin (f a)) := by
  rcases mathSinh_fin f a with ⟨h', _⟩ | ⟨_, e⟩
  · exact absurd (h'.trans h) (not_le.2 (pow_lt_huge hk))
  · exact e

theorem mathCosh_ok {f : ℝ → ℝ} {a : ℝ} {k : ℕ} (hk : k < 1024) (h : |f a| ≤ 2 ^ k) : mathCosh f (fin a) = .ok (fin (f a)) := by
  rcases mathCosh_fin f a with ⟨h', _⟩ | ⟨_, e⟩
  · exact absurd (h'.trans h) (not_le.2 (pow_lt_huge hk))
  · exact e

theorem pySq_ok {f : ℝ → ℝ} {a : ℝ} {k : ℕ} (hk : k < 1024) (h : |f a| ≤ 2 ^ k) : pySq f (fin a) = .ok (fin (f a)) := by
  rcases pySq_fin f a with ⟨h', _⟩ | ⟨_, e⟩
  · exact absurd (h'.trans h) (not_le.2 (pow_lt_huge hk))
  · exact e

theorem absUp {z : ℝ} {j k : ℕ} (h : |z| ≤ 2 ^ j) (hjk : j ≤ k) : |z| ≤ 2 ^ k := h.trans (pow_le_pow_right₀ (by norm_num) hjk)

/-- **C116, de Sitter spacetime without overflow.** If the radius is at most 1024, the times are at most 338 radii and the space coordinates at most `2^400` in absolute value, no exception is raised
and the answer is the one of the arithmetic without overflow, so the theorems of C104 hold for it. -/
theorem C116_deSitter_agree (hr : IsRounding rnd) (lib : MathLib) (hl : lib.Accurate) (eps : ℝ) (he : |eps| ≤ 1) {dim : ℕ} (hd : dim ≤ 2 ^ 20) (alpha alphaSq : ℝ) (haSq : alphaSq ≤ 2 ^ 20)
    (x y : Point) (hx : |x 0 / alpha| ≤ 338 ∧ ∀ i, 1 ≤ i → i < dim → |x i| ≤ 2 ^ 400) (hy : |y 0 / alpha| ≤ 338 ∧ ∀ i, 1 ≤ i → i < dim → |y i| ≤ 2 ^ 400) :
    causalityDSIeee rnd lib eps dim alpha alphaSq (fun i => fin (x i)) (fun i => fin (y i)) = .ok (causalityDSFl rnd lib eps dim alpha alphaSq x y) := by
  have m338 : (338 : ℝ) ∈ Binary64 := by exact_mod_cast int_mem_binary64 (n := 338) (by norm_num)
  have hr338 : ∀ {z : ℝ}, |z| ≤ 338 → |rnd z| ≤ 338 := by
    intro z h
    rw [hr.abs, ← hr.fix m338]; exact hr.mono h
  have hdiv : ∀ {a : ℝ}, |a / alpha| ≤ 338 → divF rnd alpha (fin a) = fin (rnd (a / alpha)) := by
    intro a h
    exact divF_fin hr (k := 9) (by norm_num) (h.trans (by norm_num))
  have hs : ∀ {z : ℝ}, |z| ≤ 338 → |lib.sinh (rnd z)| ≤ 2 ^ 489 ∧ |lib.cosh (rnd z)| ≤ 2 ^ 489 := fun h =>
    ⟨lib_le_pow (hl.sinh _) (hyp_338 (hr338 h)).1, lib_le_pow (hl.cosh _) (hyp_338 (hr338 h)).2⟩
  obtain ⟨nx, _⟩ := normSqIeee_fin' hr (k := 400) (by norm_num) hd hx.2
  obtain ⟨ny, _⟩ := normSqIeee_fin' hr (k := 400) (by norm_num) hd hy.2
  obtain ⟨sp, sp'⟩ := spaceSqIeee_fin' hr (k := 400) (by norm_num) hd hx.2 hy.2
  unfold causalityDSIeee causalityDSFl
  simp only [nx, ny, ge_fin, Bool.or_eq_true]
  by_cases hout : test (flNormSq rnd dim x ≥ alphaSq) = true ∨ test (flNormSq rnd dim y ≥ alphaSq) = true
  · rw [if_pos hout, if_pos hout]
  rw [if_neg hout, if_neg hout]
  push Not at hout
  simp only [test, ge_iff_le, ne_eq, decide_eq_true_eq, not_le] at hout
  have amp : ∀ {x : Point}, flNormSq rnd dim x < alphaSq → subF rnd (fin alphaSq) (fin (flNormSq rnd dim x)) = fin (rnd (alphaSq - flNormSq rnd dim x)) ∧
      mathSqrt lib.sqrt (fin (rnd (alphaSq - flNormSq rnd dim x))) = .ok (fin (lib.sqrt (rnd (alphaSq - flNormSq rnd dim x)))) ∧ |lib.sqrt (rnd (alphaSq - flNormSq rnd dim x))| ≤ 2 ^ 11 := by
    intro x h
    have h0 := flNormSq_nonneg' hr dim x
    have hb : |alphaSq - flNormSq rnd dim x| ≤ 2 ^ 20 := by rw [abs_of_nonneg (by linarith)]; linarith
    have hb' : |rnd (alphaSq - flNormSq rnd dim x)| ≤ 2 ^ 20 := hr.abs_le_pow hb
    have hn : 0 ≤ rnd (alphaSq - flNormSq rnd dim x) := hr.nonneg (by linarith)
    refine ⟨cap_of_lt (hb'.trans_lt (pow_lt_huge (by norm_num))), mathSqrt_fin hn, ?_⟩
    have h2 := hl.sqrt _ hn
    refine lib_le_pow (k := 10) (by rwa [abs_of_nonneg (Real.sqrt_nonneg _)]) (sqrt_le_pow ?_)
    exact (le_abs_self _).trans hb'
  obtain ⟨ax1, ax2, ax3⟩ := amp hout.1
  obtain ⟨ay1, ay2, ay3⟩ := amp hout.2
  obtain ⟨sx, cx⟩ := hs hx.1
  obtain ⟨sy, cy⟩ := hs hy.1
  obtain ⟨p1, p1'⟩ := mulF_fin hr (by norm_num) ax3 sx
  obtain ⟨p2, p2'⟩ := mulF_fin hr (by norm_num) ax3 cx
  obtain ⟨p3, p3'⟩ := mulF_fin hr (by norm_num) ay3 sy
  obtain ⟨p4, p4'⟩ := mulF_fin hr (by norm_num) ay3 cy
  obtain ⟨d1, d1'⟩ := subF_fin hr (by norm_num) p3' p1'
  obtain ⟨d2, d2'⟩ := subF_fin hr (by norm_num) p4' p2'
  have q1 := sq_le_pow (hl.sq _) d1'
  have q2 := sq_le_pow (hl.sq _) d2'
  obtain ⟨a1, a1'⟩ := addF_fin hr (k := 1003) (by norm_num) (absUp sp' (by norm_num)) (absUp q2 (by norm_num))
  have e1 := sub_eps_fin hr (absUp a1' (by norm_num)) he
  simp only [bind, Except.bind, pure, Except.pure, hdiv hx.1, hdiv hy.1, ax1, ax2, ay1, ay2, mathSinh_ok (by norm_num) sx, mathSinh_ok (by norm_num) sy, mathCosh_ok (by norm_num) cx,
    mathCosh_ok (by norm_num) cy, p1, p2, p3, p4, d1, d2, pySq_ok (by norm_num) q1, pySq_ok (by norm_num) q2, sp, a1, e1, ge_fin, lt_fin]

/-- **C116, anti-de Sitter spacetime without overflow.** If the squared radius is at most `2^800`, the times at most `2^1000` radii and the space coordinates at most `2^400` in absolute value, no
exception is raised and the answer is the one of the arithmetic without overflow. -/
theorem C116_antiDeSitter_agree (hr : IsRounding rnd) (lib : MathLib) (hl : lib.Accurate) (eps : ℝ) (he : |eps| ≤ 1) {dim : ℕ} (hd : dim ≤ 2 ^ 20) (alpha alphaSq : ℝ) (haSq0 : 0 ≤ alphaSq)
    (haSq : alphaSq ≤ 2 ^ 800) (x y : Point) (hx : |x 0 / alpha| ≤ 2 ^ 1000 ∧ ∀ i, 1 ≤ i → i < dim → |x i| ≤ 2 ^ 400) (hy : |y 0 / alpha| ≤ 2 ^ 1000 ∧ ∀ i, 1 ≤ i → i < dim → |y i| ≤ 2 ^ 400) :
    causalityAdSIeee rnd lib eps dim alpha alphaSq (fun i => fin (x i)) (fun i => fin (y i)) = .ok (causalityAdSFl rnd lib eps dim alpha alphaSq x y) := by
  have hdiv : ∀ {a : ℝ}, |a / alpha| ≤ 2 ^ 1000 → divF rnd alpha (fin a) = fin (rnd (a / alpha)) := fun h => divF_fin hr (by norm_num) h
  obtain ⟨nx, nx'⟩ := normSqIeee_fin' hr (k := 400) (by norm_num) hd hx.2
  obtain ⟨ny, ny'⟩ := normSqIeee_fin' hr (k := 400) (by norm_num) hd hy.2
  obtain ⟨sp, sp'⟩ := spaceSqIeee_fin' hr (k := 400) (by norm_num) hd hx.2 hy.2
  have amp : ∀ {x : Point}, |flNormSq rnd dim x| ≤ 2 ^ (2 * 400 + 20) → addF rnd (fin alphaSq) (fin (flNormSq rnd dim x)) = fin (rnd (alphaSq + flNormSq rnd dim x)) ∧
      mathSqrt lib.sqrt (fin (rnd (alphaSq + flNormSq rnd dim x))) = .ok (fin (lib.sqrt (rnd (alphaSq + flNormSq rnd dim x)))) ∧ |lib.sqrt (rnd (alphaSq + flNormSq rnd dim x))| ≤ 2 ^ 412 := by
    intro x h
    have h0 := flNormSq_nonneg' hr dim x
    obtain ⟨h1, h1'⟩ := addF_fin hr (k := 820) (by norm_num) (absUp (j := 800) (by rwa [abs_of_nonneg haSq0]) (by norm_num)) h
    have hn : 0 ≤ rnd (alphaSq + flNormSq rnd dim x) := hr.nonneg (by linarith)
    refine ⟨h1, mathSqrt_fin hn, ?_⟩
    have h2 := hl.sqrt _ hn
    refine lib_le_pow (k := 411) (by rwa [abs_of_nonneg (Real.sqrt_nonneg _)]) (sqrt_le_pow ?_)
    exact ((le_abs_self _).trans h1').trans (pow_le_pow_right₀ (by norm_num) (by norm_num))
  have hs : ∀ z : ℝ, |lib.sin z| ≤ 2 ^ 1 ∧ |lib.cos z| ≤ 2 ^ 1 := fun z =>
    ⟨lib_le_pow (k := 0) (hl.sin _) (by simpa using Real.abs_sin_le_one z), lib_le_pow (k := 0) (hl.cos _) (by simpa using Real.abs_cos_le_one z)⟩
  obtain ⟨ax1, ax2, ax3⟩ := amp nx'
  obtain ⟨ay1, ay2, ay3⟩ := amp ny'
  obtain ⟨sx, cx⟩ := hs (rnd (x 0 / alpha))
  obtain ⟨sy, cy⟩ := hs (rnd (y 0 / alpha))
  obtain ⟨p1, p1'⟩ := mulF_fin hr (by norm_num) ax3 sx
  obtain ⟨p2, p2'⟩ := mulF_fin hr (by norm_num) ax3 cx
  obtain ⟨p3, p3'⟩ := mulF_fin hr (by norm_num) ay3 sy
  obtain ⟨p4, p4'⟩ := mulF_fin hr (by norm_num) ay3 cy
  obtain ⟨d1, d1'⟩ := subF_fin hr (by norm_num) p3' p1'
  obtain ⟨d2, d2'⟩ := subF_fin hr (by norm_num) p4' p2'
  have q1 := sq_le_pow (hl.sq _) d1'
  have q2 := sq_le_pow (hl.sq _) d2'
  obtain ⟨a1, a1'⟩ := addF_fin hr (by norm_num) q1 q2
  have e1 := sub_eps_fin hr (absUp sp' (by norm_num)) he
  unfold causalityAdSIeee causalityAdSFl
  simp only [nx, ny, bind, Except.bind, pure, Except.pure, hdiv hx.1, hdiv hy.1, ax1, ax2, ay1, ay2, mathTrig,
    p1, p2, p3, p4, d1, d2, pySq_ok (by norm_num) q1, pySq_ok (by norm_num) q2, sp, a1, e1, ge_fin, lt_fin]

/-- the correctly rounded functions and radius 1: the point at time 300 in the centre, no exception -/
example : causalityDSIeee rnd64 (exactLib rnd64) 0 2 1 1 (fun i => fin (lineP 0 0 i)) (fun i => fin (lineP 300 0 i)) = .ok (causalityDSFl rnd64 (exactLib rnd64) 0 2 1 1 (lineP 0 0) (lineP 300 0)) := by
  refine C116_deSitter_agree C104_ieee _ (exactLib_accurate C104_ieee) 0 (by norm_num) (by norm_num) 1 1 (by norm_num) _ _ ⟨by norm_num [lineP], fun i h1 _ => ?_⟩ ⟨by norm_num [lineP], fun i h1 _ => ?_⟩
  all_goals
    have : i ≠ 0 := by omega
    simp [lineP, this]

/-- the same in anti-de Sitter spacetime, at any time up to `10^100` -/
example (t : ℝ) (ht : |t| ≤ 10 ^ 100) : causalityAdSIeee rnd64 (exactLib rnd64) 0 2 1 1 (fun i => fin (lineP 0 0 i)) (fun i => fin (lineP t 0 i)) =
    .ok (causalityAdSFl rnd64 (exactLib rnd64) 0 2 1 1 (lineP 0 0) (lineP t 0)) := by
  refine C116_antiDeSitter_agree C104_ieee _ (exactLib_accurate C104_ieee) 0 (by norm_num) (by norm_num) 1 1 (by norm_num) (one_le_pow₀ (by norm_num)) _ _ ⟨by simp [lineP], fun i h1 _ => ?_⟩
    ⟨?_, fun i h1 _ => ?_⟩
  · have : i ≠ 0 := by omega
    simp [lineP, this]
  · have h1 : |lineP t 0 0 / 1| = |t| := by simp [lineP]
    rw [h1]
    refine ht.trans ?_
    calc (10 : ℝ) ^ 100 ≤ (2 ^ 4) ^ 100 := pow_le_pow_left₀ (by norm_num) (by norm_num) _
      _ = 2 ^ 400 := by rw [← pow_mul]
      _ ≤ _ := pow_le_pow_right₀ (by norm_num) (by norm_num)
  · have : i ≠ 0 := by omega
    simp [lineP, this]

end Causets
