import Verif.Props.ConeFlat
import Verif.Props.Curved
import Mathlib.Analysis.SpecialFunctions.Trigonometric.DerivHyp

/-! # C84 — causal cones of de Sitter spacetime drawn by `ConePlotter` -/

namespace Causets

/-! ## The causality function, again -/

/-- the amplitude of a point -/
noncomputable def dSAmp (dim : ℕ) (alpha : ℝ) (x : Point) : ℝ := Real.sqrt (alpha ^ 2 - ∑ i ∈ Finset.Ico 1 dim, (x i) ^ 2)

theorem dSEmbed_interval {dim : ℕ} (hd : 2 ≤ dim) {alpha : ℝ} {x y : Point} (hx : InHorizon dim alpha x) (hy : InHorizon dim alpha y) :
    (dSEmbed dim alpha y 0 - dSEmbed dim alpha x 0) ^ 2 - spaceSq (dim + 1) (dSEmbed dim alpha x) (dSEmbed dim alpha y) =
      2 * (dSAmp dim alpha x * dSAmp dim alpha y * Real.cosh ((y 0 - x 0) / alpha) + ∑ i ∈ Finset.Ico 1 dim, x i * y i - alpha ^ 2) := by
  unfold InHorizon at hx hy
  have hA : dSAmp dim alpha x ^ 2 = alpha ^ 2 - ∑ i ∈ Finset.Ico 1 dim, (x i) ^ 2 := Real.sq_sqrt (by linarith)
  have hB : dSAmp dim alpha y ^ 2 = alpha ^ 2 - ∑ i ∈ Finset.Ico 1 dim, (y i) ^ 2 := Real.sq_sqrt (by linarith)
  have hS : spaceSq dim x y = ∑ i ∈ Finset.Ico 1 dim, (x i) ^ 2 + ∑ i ∈ Finset.Ico 1 dim, (y i) ^ 2 - 2 * ∑ i ∈ Finset.Ico 1 dim, x i * y i := by
    unfold spaceSq
    rw [Finset.mul_sum, ← Finset.sum_add_distrib, ← Finset.sum_sub_distrib]
    exact Finset.sum_congr rfl fun i _ => by ring
  rw [dSEmbed_spaceSq (by omega), hS]
  have e0 : ∀ z : Point, dSEmbed dim alpha z 0 = dSAmp dim alpha z * Real.sinh (z 0 / alpha) := fun z => by simp [dSEmbed, dSAmp]
  have e1 : ∀ z : Point, dSEmbed dim alpha z dim = dSAmp dim alpha z * Real.cosh (z 0 / alpha) := fun z => by simp [dSEmbed, dSAmp, show dim ≠ 0 by omega]
  rw [e0, e0, e1, e1, sub_div, Real.cosh_sub]
  have c1 := Real.cosh_sq (x 0 / alpha)
  have c2 := Real.cosh_sq (y 0 / alpha)
  linear_combination (-1) * hA - hB - dSAmp dim alpha x ^ 2 * c1 - dSAmp dim alpha y ^ 2 * c2

theorem dSAmp_pos {dim : ℕ} {alpha : ℝ} {x : Point} (hx : InHorizon dim alpha x) : 0 < dSAmp dim alpha x := by
  unfold InHorizon at hx
  exact Real.sqrt_pos.2 (by linarith)

/-- the de Sitter order in terms of the static time -/
theorem dS_iff {dim : ℕ} (hd : 2 ≤ dim) {alpha : ℝ} (ha : 0 < alpha) (x y : Point) :
    (causalityDS 0 dim alpha x y).1 = true ↔ InHorizon dim alpha x ∧ InHorizon dim alpha y ∧ x 0 ≤ y 0 ∧
      alpha ^ 2 ≤ dSAmp dim alpha x * dSAmp dim alpha y * Real.cosh ((y 0 - x 0) / alpha) + ∑ i ∈ Finset.Ico 1 dim, x i * y i := by
  constructor
  · intro h
    have ht := C44_deSitter_time dim hd alpha ha x y h
    rw [C44_deSitter dim hd, minkLe_iff] at h
    obtain ⟨hx, hy, -, h2⟩ := h
    have := dSEmbed_interval hd hx hy
    exact ⟨hx, hy, ht, by linarith⟩
  · rintro ⟨hx, hy, ht, hc⟩
    have hi := dSEmbed_interval hd hx hy
    rw [C44_deSitter dim hd, minkLe_iff]
    refine ⟨hx, hy, ?_, by linarith⟩
    by_contra hneg
    push Not at hneg
    have hback : (causalityDS 0 dim alpha y x).1 = true := by
      rw [C44_deSitter dim hd, minkLe_iff]
      refine ⟨hy, hx, by linarith, ?_⟩
      have e2 : spaceSq (dim + 1) (dSEmbed dim alpha y) (dSEmbed dim alpha x) = spaceSq (dim + 1) (dSEmbed dim alpha x) (dSEmbed dim alpha y) :=
        Finset.sum_congr rfl fun i _ => by ring
      rw [e2, show (dSEmbed dim alpha x 0 - dSEmbed dim alpha y 0) ^ 2 = (dSEmbed dim alpha y 0 - dSEmbed dim alpha x 0) ^ 2 by ring]
      linarith
    have heq : x 0 = y 0 := le_antisymm ht (C44_deSitter_time dim hd alpha ha y x hback)
    have e0 : ∀ z : Point, dSEmbed dim alpha z 0 = dSAmp dim alpha z * Real.sinh (z 0 / alpha) := fun z => by simp [dSEmbed, dSAmp]
    have e1 : ∀ z : Point, dSEmbed dim alpha z dim = dSAmp dim alpha z * Real.cosh (z 0 / alpha) := fun z => by simp [dSEmbed, dSAmp, show dim ≠ 0 by omega]
    have hs : 0 ≤ spaceSq dim x y := Finset.sum_nonneg fun i _ => sq_nonneg _
    rw [dSEmbed_spaceSq (by omega), e0, e0, e1, e1, heq] at hi
    rw [heq] at hc
    rw [e0, e0, heq] at hneg
    have c := Real.cosh_sq (y 0 / alpha)
    have hAB : (dSAmp dim alpha y - dSAmp dim alpha x) ^ 2 ≤ 0 := by nlinarith
    have : dSAmp dim alpha y - dSAmp dim alpha x = 0 := by
      have := le_antisymm hAB (sq_nonneg _); exact pow_eq_zero_iff (two_ne_zero) |>.1 this
    rw [← sub_mul, this, zero_mul] at hneg
    exact lt_irrefl _ hneg

/-! ## Two dimensions -/

theorem tanh_lt_tanh_iff' (u v : ℝ) : Real.tanh u ≤ Real.tanh v ↔ u ≤ v := by
  rw [← Real.artanh_le_artanh_iff (x := Real.tanh u) (y := Real.tanh v) ⟨Real.neg_one_lt_tanh u, Real.tanh_lt_one u⟩ ⟨Real.neg_one_lt_tanh v, Real.tanh_lt_one v⟩,
    Real.artanh_tanh, Real.artanh_tanh]

theorem dS2_iff {alpha : ℝ} (ha : 0 < alpha) (x y : Point) :
    (causalityDS 0 2 alpha x y).1 = true ↔ |x 1| < alpha ∧ |y 1| < alpha ∧ x 0 ≤ y 0 ∧
      |Real.artanh (y 1 / alpha) - Real.artanh (x 1 / alpha)| ≤ (y 0 - x 0) / alpha := by
  rw [dS_iff le_rfl ha]
  have hh : ∀ z : Point, InHorizon 2 alpha z ↔ |z 1| < alpha := fun z => by
    unfold InHorizon
    rw [Nat.Ico_succ_singleton, Finset.sum_singleton, sq_lt_sq, abs_of_pos ha]
  rw [hh, hh]
  refine and_congr_right fun hx => and_congr_right fun hy => and_congr_right fun ht => ?_
  have hmem : ∀ z : ℝ, |z| < alpha → z / alpha ∈ Set.Ioo (-1 : ℝ) 1 := fun z hz => by
    rw [abs_lt] at hz
    exact ⟨by rw [lt_div_iff₀ ha]; linarith, by rw [div_lt_iff₀ ha]; linarith⟩
  have hamp : ∀ z : Point, |z 1| < alpha → dSAmp 2 alpha z = alpha * (1 / Real.cosh (Real.artanh (z 1 / alpha))) := by
    intro z hz
    rw [Real.cosh_artanh (hmem _ hz)]
    unfold dSAmp
    rw [Nat.Ico_succ_singleton, Finset.sum_singleton, one_div_one_div]
    rw [show alpha ^ 2 - z 1 ^ 2 = alpha ^ 2 * (1 - (z 1 / alpha) ^ 2) by field_simp, Real.sqrt_mul (sq_nonneg _), Real.sqrt_sq ha.le]
  have hpos : ∀ z : Point, |z 1| < alpha → z 1 = alpha * Real.tanh (Real.artanh (z 1 / alpha)) := by
    intro z hz
    rw [Real.tanh_artanh (hmem _ hz)]; field_simp
  rw [hamp x hx, hamp y hy, Nat.Ico_succ_singleton, Finset.sum_singleton]
  generalize hu : Real.artanh (x 1 / alpha) = u
  generalize hv : Real.artanh (y 1 / alpha) = v
  have hx1 := hpos x hx
  have hy1 := hpos y hy
  rw [hu] at hx1; rw [hv] at hy1
  rw [hx1, hy1, Real.tanh_eq_sinh_div_cosh, Real.tanh_eq_sinh_div_cosh]
  have cu := Real.cosh_pos u
  have cv := Real.cosh_pos v
  have e : alpha * (1 / Real.cosh u) * (alpha * (1 / Real.cosh v)) * Real.cosh ((y 0 - x 0) / alpha) +
      alpha * (Real.sinh u / Real.cosh u) * (alpha * (Real.sinh v / Real.cosh v)) =
      alpha ^ 2 * ((Real.cosh ((y 0 - x 0) / alpha) + Real.sinh u * Real.sinh v) / (Real.cosh u * Real.cosh v)) := by
    field_simp
  rw [e, le_mul_iff_one_le_right (by positivity), one_le_div (by positivity)]
  have h0 : 0 ≤ (y 0 - x 0) / alpha := div_nonneg (by linarith) ha.le
  have : Real.cosh u * Real.cosh v ≤ Real.cosh ((y 0 - x 0) / alpha) + Real.sinh u * Real.sinh v ↔ Real.cosh (v - u) ≤ Real.cosh ((y 0 - x 0) / alpha) := by
    rw [Real.cosh_sub]
    constructor <;> intro h <;> nlinarith
  rw [this, Real.cosh_le_cosh, abs_of_nonneg h0]

theorem xtRows_length (n : ℕ) (lo hi T : ℕ → ℝ) : (xtRows n lo hi T).length = n + (n - 1) := by simp [xtRows]

theorem xtRows_right (n : ℕ) (lo hi T : ℕ → ℝ) (k : ℕ) (hk : k < n) : (xtRows n lo hi T)[k]? = some (hi k, T k) := by
  unfold xtRows
  rw [List.getElem?_append_left (by simpa using hk), List.getElem?_map, List.getElem?_range hk]; rfl

theorem xtRows_left (n : ℕ) (lo hi T : ℕ → ℝ) (k : ℕ) (h1 : 1 ≤ k) (hk : k < n) : (xtRows n lo hi T)[2 * n - 1 - k]? = some (lo k, T k) := by
  unfold xtRows
  rw [List.getElem?_append_right (by simp; omega), List.getElem?_map, List.getElem?_range (by simp; omega)]
  simp only [List.length_map, List.length_range, Option.map_some, Option.some.injEq]
  have : n - 1 - (2 * n - 1 - k - n) = k := by omega
  rw [this]

/-- the values of `_XT_slice2`, in order -/
theorem dSXT2_sorted {alpha : ℝ} (ha : 0 < alpha) (t t0 x0 : ℝ) :
    min (dSXT2 alpha t t0 x0).1 (dSXT2 alpha t t0 x0).2 = alpha * Real.tanh (Real.artanh x0 - |t - t0| / alpha) ∧
    max (dSXT2 alpha t t0 x0).1 (dSXT2 alpha t t0 x0).2 = alpha * Real.tanh (Real.artanh x0 + |t - t0| / alpha) := by
  unfold dSXT2
  rcases le_total 0 (t - t0) with h | h
  · rw [abs_of_nonneg h]
    have h' : 0 ≤ (t - t0) / alpha := div_nonneg h ha.le
    have := mul_le_mul_of_nonneg_left ((tanh_lt_tanh_iff' (Real.artanh x0 - (t - t0) / alpha) (Real.artanh x0 + (t - t0) / alpha)).2 (by linarith)) ha.le
    exact ⟨min_eq_left this, max_eq_right this⟩
  · rw [abs_of_nonpos h, neg_div, sub_neg_eq_add, ← sub_eq_add_neg]
    have h' : (t - t0) / alpha ≤ 0 := div_nonpos_of_nonpos_of_nonneg h ha.le
    have := mul_le_mul_of_nonneg_left ((tanh_lt_tanh_iff' (Real.artanh x0 + (t - t0) / alpha) (Real.artanh x0 - (t - t0) / alpha)).2 (by linarith)) ha.le
    exact ⟨min_eq_right this, max_eq_left this⟩

/-- the points at a given distance in `artanh` -/
theorem tanh_interval {alpha : ℝ} (ha : 0 < alpha) (u τ x : ℝ) :
    (|x| < alpha ∧ |Real.artanh (x / alpha) - u| ≤ τ) ↔ alpha * Real.tanh (u - τ) ≤ x ∧ x ≤ alpha * Real.tanh (u + τ) := by
  constructor
  · rintro ⟨h1, h2⟩
    rw [abs_lt] at h1
    have hm : x / alpha ∈ Set.Ioo (-1 : ℝ) 1 := ⟨by rw [lt_div_iff₀ ha]; linarith, by rw [div_lt_iff₀ ha]; linarith⟩
    have hx : x = alpha * Real.tanh (Real.artanh (x / alpha)) := by rw [Real.tanh_artanh hm]; field_simp
    rw [abs_le] at h2
    rw [hx]
    constructor
    · refine mul_le_mul_of_nonneg_left ?_ ha.le
      rw [tanh_lt_tanh_iff']; linarith
    · refine mul_le_mul_of_nonneg_left ?_ ha.le
      rw [tanh_lt_tanh_iff']; linarith
  · rintro ⟨h1, h2⟩
    have b1 : -alpha < x := by nlinarith [Real.neg_one_lt_tanh (u - τ)]
    have b2 : x < alpha := by nlinarith [Real.tanh_lt_one (u + τ)]
    have hm : x / alpha ∈ Set.Ioo (-1 : ℝ) 1 := ⟨by rw [lt_div_iff₀ ha]; linarith, by rw [div_lt_iff₀ ha]; linarith⟩
    refine ⟨abs_lt.2 ⟨b1, b2⟩, ?_⟩
    rw [mul_comm, ← le_div_iff₀ ha, ← Real.tanh_artanh hm, tanh_lt_tanh_iff'] at h1
    rw [mul_comm, ← div_le_iff₀ ha, ← Real.tanh_artanh hm, tanh_lt_tanh_iff'] at h2
    rw [abs_le]; constructor <;> linarith

/-- **C84, de Sitter spacetime of two dimensions.** For an event inside the horizon, either order of the axes and any number `m` of sampling points, `ConePlotter` draws a polygon
of `2 m - 1` rows: row `k` and row `k` from the end are the ends of the interval of positions causally after (before) the event at the time `T k`, where the
times `T 0, ..., T (m - 1)` lead from the time of the event to `ts` in equal steps.  For an event on or beyond the horizon nothing is drawn. -/
theorem C84_deSitter_2d (sgn : ℝ) (junk : ℕ → Option (ℝ × ℝ)) {alpha : ℝ} (ha : 0 < alpha) (d0 d1 : ℕ) (hd : (d0 = 0 ∧ d1 = 1) ∨ (d0 = 1 ∧ d1 = 0)) (n : ℤ) (o : Point) (ts : ℝ) :
    (|o 1| < alpha → ∃ (rows : List (Option (ℝ × ℝ))) (left right T : ℕ → ℝ), coneGeom junk (.deSitter 2 alpha) [d0, d1] sgn n o ts = .ok (some (.polygon rows)) ∧
      rows.length = 2 * coneSampling n - 1 ∧ (∀ k, T k = o 0 + k * ((ts - o 0) / (coneSampling n - 1))) ∧
      (∀ k < coneSampling n, rows[k]? = some (some (if d0 = 0 then (T k, right k) else (right k, T k)))) ∧
      (∀ k < coneSampling n, 1 ≤ k → rows[2 * coneSampling n - 1 - k]? = some (some (if d0 = 0 then (T k, left k) else (left k, T k)))) ∧
      (o 0 ≤ ts → ∀ k x, (causalityDS 0 2 alpha o (fun i => if i = 0 then T k else x)).1 = true ↔ left k ≤ x ∧ x ≤ right k) ∧
      (ts ≤ o 0 → ∀ k x, (causalityDS 0 2 alpha (fun i => if i = 0 then T k else x) o).1 = true ↔ left k ≤ x ∧ x ≤ right k)) ∧
    (alpha ≤ |o 1| → coneGeom junk (.deSitter 2 alpha) [d0, d1] sgn n o ts = .ok none) := by
  have hm : 1 ≤ coneSampling n := by unfold coneSampling; split_ifs <;> omega
  have hta : coneTimeAxis [d0, d1] = (if d0 = 0 then 0 else 1) ∧ (if coneTimeAxis [d0, d1] = 0 then d1 else d0) = 1 := by
    rcases hd with ⟨rfl, rfl⟩ | ⟨rfl, rfl⟩ <;> simp [timeAxis_first, timeAxis_second]
  obtain ⟨hta, hx⟩ := hta
  have hta0 : ¬ coneTimeAxis [d0, d1] < 0 := by rw [hta]; split <;> norm_num
  have habs : |o 1 / alpha| = |o 1| / alpha := by rw [abs_div, abs_of_pos ha]
  constructor
  · intro ho
    have hlt : ¬ |o 1 / alpha| ≥ 1 := by rw [habs, ge_iff_le, not_le, div_lt_one ha]; exact ho
    refine ⟨if coneTimeAxis [d0, d1] = 0 then ((xtRows (coneSampling n) (fun k => alpha * Real.tanh (Real.artanh (o 1 / alpha) - |linspaceR (o 0) ts (coneSampling n) k - o 0| / alpha))
        (fun k => alpha * Real.tanh (Real.artanh (o 1 / alpha) + |linspaceR (o 0) ts (coneSampling n) k - o 0| / alpha))
        (linspaceR (o 0) ts (coneSampling n))).map some).map (Option.map Prod.swap) else
        (xtRows (coneSampling n) (fun k => alpha * Real.tanh (Real.artanh (o 1 / alpha) - |linspaceR (o 0) ts (coneSampling n) k - o 0| / alpha))
        (fun k => alpha * Real.tanh (Real.artanh (o 1 / alpha) + |linspaceR (o 0) ts (coneSampling n) k - o 0| / alpha))
        (linspaceR (o 0) ts (coneSampling n))).map some,
      fun k => alpha * Real.tanh (Real.artanh (o 1 / alpha) - |linspaceR (o 0) ts (coneSampling n) k - o 0| / alpha),
      fun k => alpha * Real.tanh (Real.artanh (o 1 / alpha) + |linspaceR (o 0) ts (coneSampling n) k - o 0| / alpha),
      linspaceR (o 0) ts (coneSampling n), ?_, ?_, fun k => rfl, ?_, ?_, ?_, ?_⟩
    · simp only [coneGeom, dSCone, baseCone, hta0, if_false, dSXT, if_true, test, hlt, decide_false, Bool.false_eq_true, Option.map_some,
        (dSXT2_sorted ha _ _ _).1, (dSXT2_sorted ha _ _ _).2]
    · split <;> simp [xtRows_length] <;> omega
    · intro k hk
      rw [hta]
      split_ifs <;> simp_all [xtRows_right, List.getElem?_map]
    · intro k hk h1
      rw [hta]
      split_ifs <;> simp_all [xtRows_left, List.getElem?_map]
    · intro hts k x
      rw [dS2_iff ha]
      have hT : 0 ≤ linspaceR (o 0) ts (coneSampling n) k - o 0 := by
        unfold linspaceR
        rw [add_sub_cancel_left]
        refine mul_nonneg (Nat.cast_nonneg _) (div_nonneg (by linarith) ?_)
        have : (1 : ℝ) ≤ coneSampling n := by exact_mod_cast hm
        linarith
      rw [← tanh_interval ha, abs_of_nonneg hT]
      simp only [if_true, one_ne_zero, if_false]
      constructor
      · rintro ⟨-, h1, -, h2⟩; exact ⟨h1, h2⟩
      · rintro ⟨h1, h2⟩; exact ⟨ho, h1, by linarith, h2⟩
    · intro hts k x
      rw [dS2_iff ha]
      have hT : linspaceR (o 0) ts (coneSampling n) k - o 0 ≤ 0 := by
        unfold linspaceR
        rw [add_sub_cancel_left]
        refine mul_nonpos_of_nonneg_of_nonpos (Nat.cast_nonneg _) (div_nonpos_of_nonpos_of_nonneg (by linarith) ?_)
        have : (1 : ℝ) ≤ coneSampling n := by exact_mod_cast hm
        linarith
      rw [← tanh_interval ha, abs_of_nonpos hT]
      simp only [if_true, one_ne_zero, if_false, neg_sub]
      rw [abs_sub_comm]
      constructor
      · rintro ⟨h1, -, -, h2⟩; exact ⟨h1, h2⟩
      · rintro ⟨h1, h2⟩; exact ⟨h1, ho, by linarith, h2⟩
  · intro ho
    have hge : |o 1 / alpha| ≥ 1 := by rw [habs, ge_iff_le, one_le_div ha]; exact ho
    simp only [coneGeom, dSCone, baseCone, hta0, if_false, dSXT, if_true, test, hge, decide_true, Option.map_none]

end Causets
