import Verif.Props.Float32Sprinkle

/-! # C115 — sprinkles in balls and cylinders, in single precision -/

namespace Causets

/-- the error analysis of the radius -/
theorem ball_radius {r64 : ℝ → ℝ} {u w : ℝ} (hu0 : 0 < u) (hu : u ≤ 1 / 2 ^ 50) (hw0 : 0 < w) (hw : w ≤ 1 / 2 ^ 200) (h64 : RoundErr r64 u w) (bd : ℕ) (hbd : bd ≤ 100000) (n : ℕ → ℝ)
    (h1 : 1 / 2 ^ 50 ≤ Real.sqrt (∑ k ∈ Finset.range bd, n k ^ 2)) (h2 : Real.sqrt (∑ k ∈ Finset.range bd, n k ^ 2) ≤ 2 ^ 50) (ρ : ℝ) (hρ : 0 ≤ ρ) :
    let N := Real.sqrt (∑ k ∈ Finset.range bd, n k ^ 2)
    let f := r64 (r64 ρ / normalNorm64 r64 bd n)
    0 ≤ f ∧ |f * N - ρ| ≤ 1 / 2 ^ 26 * (ρ + 1 / 2 ^ 126) := by
  intro N f
  have hN : (∑ k ∈ Finset.range bd, n k ^ 2) = ((List.range bd).map fun k => n k ^ 2).sum := by
    rw [← List.sum_toFinset _ List.nodup_range]
    exact Finset.sum_congr (by ext; simp) fun _ _ => rfl
  have hbd' : (bd : ℝ) ≤ 100000 := by exact_mod_cast hbd
  have hb0 : (0 : ℝ) ≤ bd := Nat.cast_nonneg _
  have hu6 : u ≤ 1 / 1000000 := hu.trans (by norm_num)
  have hw1 : w ≤ 1 := hw.trans (by norm_num)
  have hsum := h64.sum_near hu0 hu6 hw0 hw1 (List.range bd) (fun k => r64 (n k ^ 2)) (fun k => n k ^ 2) (fun k _ => h64.nonneg _ (sq_nonneg _)) (fun k _ => sq_nonneg _)
    (fun k _ => by
      have := h64.err (n k ^ 2)
      rw [abs_of_nonneg (sq_nonneg (n k))] at this
      have h0 : 0 ≤ u * (n k ^ 2 + w) := by positivity
      linarith) (by
      rw [List.length_range]
      calc (bd : ℝ) * (2 * u) ≤ 100000 * (2 * (1 / 1000000)) := mul_le_mul hbd' (by linarith) (by linarith) (by norm_num)
        _ ≤ 1 := by norm_num)
  rw [List.length_range, ← hN] at hsum
  have hS0 : 0 ≤ ∑ k ∈ Finset.range bd, n k ^ 2 := Finset.sum_nonneg fun k _ => sq_nonneg _
  have hNsq : ∑ k ∈ Finset.range bd, n k ^ 2 = N ^ 2 := (Real.sq_sqrt hS0).symm
  have hN1 : 1 / 2 ^ 50 ≤ N := h1
  have hN2 : N ≤ 2 ^ 50 := h2
  rw [hNsq] at hsum
  set S := flSum r64 ((List.range bd).map fun k => r64 (n k ^ 2)) with hSd
  set r := normalNorm64 r64 bd n with hr
  have hrd : r = r64 (Real.sqrt S) := rfl
  have hf : f = r64 (r64 ρ / r) := rfl
  clear_value f r S N
  have hNp : 0 < N := lt_of_lt_of_le (by positivity) hN1
  have hwN : w ≤ N := hw.trans (le_trans (by norm_num) hN1)
  have hNsq1 : (1 / 2 ^ 50 : ℝ) ^ 2 ≤ N ^ 2 := pow_le_pow_left₀ (by positivity) hN1 2
  have hwN2 : (bd + 1) * w ≤ N ^ 2 := by
    have h3 : (bd + 1) * w ≤ 100001 * (1 / 2 ^ 200) := mul_le_mul (by linarith) hw hw0.le (by norm_num)
    have h4 : (100001 : ℝ) * (1 / 2 ^ 200) ≤ (1 / 2 ^ 50) ^ 2 := by norm_num
    linarith
  -- the sum
  have hκ : (4 * (bd : ℝ) + 6) * u ≤ 1 / 2 ^ 31 := by
    calc (4 * (bd : ℝ) + 6) * u ≤ 400006 * (1 / 2 ^ 50) := mul_le_mul (by linarith) hu hu0.le (by norm_num)
      _ ≤ 1 / 2 ^ 31 := by norm_num
  have hS : |S - N ^ 2| ≤ 1 / 2 ^ 30 * N ^ 2 := by
    refine hsum.trans ?_
    calc (4 * (bd : ℝ) + 6) * u * (N ^ 2 + (bd + 1) * w) ≤ 1 / 2 ^ 31 * (2 * N ^ 2) := mul_le_mul hκ (by linarith) (by positivity) (by norm_num)
      _ = _ := by ring
  have hS' := abs_le.1 hS
  have hSn : 0 ≤ S := by
    have := sq_nonneg N
    linarith
  have hq0 := Real.sqrt_nonneg S
  have hqs := Real.sq_sqrt hSn
  set q := Real.sqrt S
  have hq : |q - N| ≤ 1 / 2 ^ 30 * N := by
    have e : (q - N) * (q + N) = S - N ^ 2 := by rw [← hqs]; ring
    have h3 : |q - N| * (q + N) ≤ 1 / 2 ^ 30 * N ^ 2 := by
      rw [← abs_of_pos (by linarith : 0 < q + N), ← abs_mul, e]; exact hS
    have h4 : |q - N| * N ≤ |q - N| * (q + N) := mul_le_mul_of_nonneg_left (by linarith) (abs_nonneg _)
    have h5 : |q - N| * N ≤ (1 / 2 ^ 30 * N) * N := by linarith [h3, h4, (by ring : 1 / 2 ^ 30 * N ^ 2 = (1 / 2 ^ 30 * N) * N)]
    exact le_of_mul_le_mul_right h5 hNp
  have hq' := abs_le.1 hq
  have hre := abs_le.1 (h64.err q)
  rw [← hrd, abs_of_nonneg hq0] at hre
  have huq : u * (q + w) ≤ 1 / 2 ^ 50 * (3 * N) := mul_le_mul hu (by linarith) (by linarith) (by norm_num)
  have hrN : |r - N| ≤ 1 / 2 ^ 29 * N := by
    rw [abs_le]; constructor <;> linarith
  have hrN' := abs_le.1 hrN
  have hrp : 0 < r := by linarith
  -- the quotient
  have hg0 : 0 ≤ r64 ρ := h64.nonneg _ hρ
  have hg := abs_le.1 (h64.err ρ)
  rw [abs_of_nonneg hρ] at hg
  set g := r64 ρ
  have hfe := h64.err (g / r)
  have hgr : 0 ≤ g / r := div_nonneg hg0 hrp.le
  rw [← hf, abs_of_nonneg hgr] at hfe
  refine ⟨by rw [hf]; exact h64.nonneg _ hgr, ?_⟩
  have hgN : |g / r * N - g| ≤ 1 / 2 ^ 28 * g := by
    have e : g / r * N - g = g / r * (N - r) := by field_simp
    rw [e, abs_mul, abs_of_nonneg hgr, abs_sub_comm]
    have h3 : N ≤ 2 * r := by linarith
    calc g / r * |r - N| ≤ g / r * (1 / 2 ^ 29 * (2 * r)) := mul_le_mul_of_nonneg_left (by linarith) hgr
      _ = 1 / 2 ^ 28 * g := by field_simp
  have hgN' := abs_le.1 hgN
  have hfN : |f * N - g / r * N| ≤ u * (g / r * N + w * N) := by
    rw [← sub_mul, abs_mul, abs_of_pos hNp]
    calc |f - g / r| * N ≤ u * (g / r + w) * N := mul_le_mul_of_nonneg_right hfe hNp.le
      _ = _ := by ring
  have hfN' := abs_le.1 hfN
  have hwNn : w * N ≤ 1 / 2 ^ 150 := by
    calc w * N ≤ 1 / 2 ^ 200 * 2 ^ 50 := mul_le_mul hw hN2 hNp.le (by norm_num)
      _ ≤ 1 / 2 ^ 150 := by norm_num
  have hugN : u * (g / r * N + w * N) ≤ 1 / 2 ^ 50 * (2 * g + 1 / 2 ^ 150) := mul_le_mul hu (by linarith) (by positivity) (by norm_num)
  have hug : u * (ρ + w) ≤ 1 / 2 ^ 50 * (ρ + 1 / 2 ^ 200) := mul_le_mul hu (by linarith) (by linarith) (by norm_num)
  have h150 : (1 : ℝ) / 2 ^ 150 ≤ 1 / 2 ^ 126 := by norm_num
  have h200 : (1 : ℝ) / 2 ^ 200 ≤ 1 / 2 ^ 126 := by norm_num
  generalize (1 : ℝ) / 2 ^ 150 = a150 at *
  generalize (1 : ℝ) / 2 ^ 200 = a200 at *
  have h126 : (0 : ℝ) ≤ 1 / 2 ^ 126 := by positivity
  generalize (1 : ℝ) / 2 ^ 126 = a126 at *
  rw [abs_le]
  constructor <;> linarith

/-- the distance of a point from the centre -/
theorem ball_distance (bd : ℕ) (z c v : ℕ → ℝ) (F C a w : ℝ) (ha : 0 ≤ a) (hw : 0 ≤ w) (hF : Real.sqrt (∑ k ∈ Finset.range bd, v k ^ 2) = F) (hC : Real.sqrt (∑ k ∈ Finset.range bd, c k ^ 2) = C)
    (he : ∀ k < bd, |z k - c k - v k| ≤ a * (|c k| + |v k| + w)) :
    |Real.sqrt (∑ k ∈ Finset.range bd, (z k - c k) ^ 2) - F| ≤ a * (C + F + bd * w) := by
  have hF0 : 0 ≤ F := hF ▸ Real.sqrt_nonneg _
  have hC0 : 0 ≤ C := hC ▸ Real.sqrt_nonneg _
  have hF2 : ∑ k ∈ Finset.range bd, v k ^ 2 = F ^ 2 := by rw [← hF, Real.sq_sqrt (Finset.sum_nonneg fun k _ => sq_nonneg _)]
  have hC2 : ∑ k ∈ Finset.range bd, c k ^ 2 = C ^ 2 := by rw [← hC, Real.sq_sqrt (Finset.sum_nonneg fun k _ => sq_nonneg _)]
  have hb0 : (0 : ℝ) ≤ bd := Nat.cast_nonneg _
  have e1 : ∑ k ∈ Finset.range bd, (a * (|c k| + |v k|)) ^ 2 ≤ (a * C + a * F) ^ 2 := by
    refine sumSq_tri _ (fun k => a * c k) (fun k => a * v k) _ _ _ (mul_nonneg ha hC0) (mul_nonneg ha hF0) ?_ ?_ fun k _ => ?_
    · simp only [mul_pow, ← Finset.mul_sum, hC2, le_refl]
    · simp only [mul_pow, ← Finset.mul_sum, hF2, le_refl]
    · rw [abs_of_nonneg (by positivity), abs_mul, abs_mul, abs_of_nonneg ha]; linarith
  have e2 : ∑ k ∈ Finset.range bd, (a * w) ^ 2 ≤ (a * (bd * w)) ^ 2 := by
    rw [Finset.sum_const, Finset.card_range, nsmul_eq_mul]
    have : (bd : ℝ) ≤ bd ^ 2 := by
      rcases Nat.eq_zero_or_pos bd with h | h
      · rw [h]; norm_num
      · have : (1 : ℝ) ≤ bd := by exact_mod_cast h
        nlinarith
    have h2 : 0 ≤ (a * w) ^ 2 := sq_nonneg _
    calc (bd : ℝ) * (a * w) ^ 2 ≤ bd ^ 2 * (a * w) ^ 2 := mul_le_mul_of_nonneg_right this h2
      _ = _ := by ring
  have e3 : ∑ k ∈ Finset.range bd, (z k - c k - v k) ^ 2 ≤ (a * C + a * F + a * (bd * w)) ^ 2 := by
    refine sumSq_tri _ (fun k => a * (|c k| + |v k|)) (fun _ => a * w) _ _ _ (by positivity) (by positivity) e1 e2 fun k hk => ?_
    rw [abs_of_nonneg (by positivity : 0 ≤ a * (|c k| + |v k|)), abs_of_nonneg (by positivity : 0 ≤ a * w)]
    have := he k (Finset.mem_range.1 hk)
    linarith
  have eE : a * C + a * F + a * (bd * w) = a * (C + F + bd * w) := by ring
  rw [eE] at e3
  set E := a * (C + F + bd * w)
  have hE : 0 ≤ E := by positivity
  set D := Real.sqrt (∑ k ∈ Finset.range bd, (z k - c k) ^ 2) with hD
  have hD0 : 0 ≤ D := Real.sqrt_nonneg _
  have hD2 : ∑ k ∈ Finset.range bd, (z k - c k) ^ 2 = D ^ 2 := by rw [hD, Real.sq_sqrt (Finset.sum_nonneg fun k _ => sq_nonneg _)]
  have g1 : D ^ 2 ≤ (F + E) ^ 2 := by
    rw [← hD2]
    refine sumSq_tri _ v (fun k => z k - c k - v k) _ _ _ hF0 hE hF2.le e3 fun k _ => ?_
    have : z k - c k = v k + (z k - c k - v k) := by ring
    conv_lhs => rw [this]
    exact abs_add_le _ _
  have g2 : F ^ 2 ≤ (D + E) ^ 2 := by
    rw [← hF2]
    refine sumSq_tri _ (fun k => z k - c k) (fun k => z k - c k - v k) _ _ _ hD0 hE hD2.le e3 fun k _ => ?_
    have : v k = (z k - c k) - (z k - c k - v k) := by ring
    conv_lhs => rw [this]
    exact abs_sub _ _
  have k1 : D ≤ F + E := le_of_sq_le_sq g1 (by positivity)
  have k2 : F ≤ D + E := le_of_sq_le_sq g2 (by positivity)
  rw [abs_le]; constructor <;> linarith

/-- **C115, balls and cylinders.** If the norm of the normal numbers is between 2^-50 and 2^50, the dimension at most 100000 and the shape is a ball or cylinder, then the coordinates of an
event (the spatial ones for a cylinder) are `float32` numbers, at a distance from the centre that is the value of `r_scaling` times the radius up to `2^-23` of the norm of the centre plus
the distance (plus `b_d 2^-126`).  So if `r_scaling` is between the hollow fraction and 1, the event is in the hollow ball up to this error.  The time of an event in a cylinder is within
the limits, rounded to `float32`. -/
theorem C115_ball {r32 r64 rS : ℝ → ℝ} (h32 : IsRoundingTo Binary32 r32) (h64 : IsRoundingTo Binary64 r64) (scal : ℕ → ℝ) (normal : ℕ → ℕ → ℝ) (time : ℕ → ℝ → ℝ → ℝ) (dim : ℕ)
    (hdim : dim ≤ 100000) (S : CoordinateShape) (i : ℕ) (hs : 0 ≤ scal i) (hR : 0 ≤ S.radius.getD 0) :
    let dstart := if S.name = "ball" then 0 else 1
    let bd := dim - dstart
    let N := Real.sqrt (∑ k ∈ Finset.range bd, normal i k ^ 2)
    let z := sprinkleBall32 r32 r64 rS scal normal time dim S i
    let D := Real.sqrt (∑ k ∈ Finset.range bd, (z (dstart + k) - S.center.getD (dstart + k) 0) ^ 2)
    let C := Real.sqrt (∑ k ∈ Finset.range bd, S.center.getD (dstart + k) 0 ^ 2)
    let R := S.radius.getD 0
    let E := 1 / 2 ^ 23 * (C + scal i * R + bd / 2 ^ 126)
    1 / 2 ^ 50 ≤ N → N ≤ 2 ^ 50 →
      (∀ k < bd, z (dstart + k) ∈ Binary32) ∧ |D - scal i * R| ≤ E ∧
      (∀ h, h ≤ scal i → scal i ≤ 1 → h * R - E ≤ D ∧ D ≤ R + E) := by
  intro dstart bd N z D C R E hN1 hN2
  set u : ℝ := 1 / 2 ^ 53 with hu
  set w : ℝ := 1 / 2 ^ 200 with hw
  have hu0 : 0 < u := by rw [hu]; positivity
  have hw0 : 0 < w := by rw [hw]; positivity
  have e64 : RoundErr r64 u w := by
    refine roundErr_floatNum (p := 53) (emin := -1074) (by norm_num) h64 u w ?_ ?_
    · rw [hu, zpow_neg, one_div]; norm_cast
    · have : u * w = 2 ^ (-253 : ℤ) := by rw [hu, hw, zpow_neg]; norm_num
      rw [this]; exact zpow_le_zpow_right₀ (by norm_num) (by norm_num)
  have e32 : RoundErr r32 (1 / 2 ^ 24) (1 / 2 ^ 126) := by
    refine roundErr_floatNum (p := 24) (emin := -149) (by norm_num) h32 _ _ ?_ ?_
    · rw [zpow_neg, one_div]; norm_cast
    · have : (1 : ℝ) / 2 ^ 24 * (1 / 2 ^ 126) = 2 ^ (-150 : ℤ) := by rw [zpow_neg]; norm_num
      rw [this]; norm_num
  have hρ : 0 ≤ scal i * R := mul_nonneg hs hR
  obtain ⟨hf0, hfN⟩ := ball_radius hu0 (by rw [hu]; norm_num) hw0 le_rfl e64 bd (le_trans (Nat.sub_le _ _) hdim) (normal i) hN1 hN2 (scal i * R) hρ
  set f := r64 (r64 (scal i * R) / normalNorm64 r64 bd (normal i)) with hf
  have hz : ∀ k < bd, z (dstart + k) = r32 (r64 (S.center.getD (dstart + k) 0 + r64 (f * normal i k))) := by
    intro k hk
    simp only [z, sprinkleBall32]
    rw [if_neg (by omega), if_pos (by omega), Nat.add_sub_cancel_left]
  have herr : ∀ k < bd, |z (dstart + k) - S.center.getD (dstart + k) 0 - f * normal i k| ≤ 3 / 2 ^ 25 * (|S.center.getD (dstart + k) 0| + |f * normal i k| + 1 / 2 ^ 126) := by
    intro k hk
    rw [hz k hk]
    set c := S.center.getD (dstart + k) 0
    set v := f * normal i k
    have a1 := e64.err v
    have a2 := e64.err (c + r64 v)
    have a3 := e32.err (r64 (c + r64 v))
    set p := r64 v
    set s := r64 (c + p)
    have b1 : |p| ≤ |v| + u * (|v| + w) := by
      have := abs_sub_abs_le_abs_sub p v
      linarith
    have b2 : |c + p| ≤ |c| + |p| := abs_add_le _ _
    have b3 : |s| ≤ |c + p| + u * (|c + p| + w) := by
      have := abs_sub_abs_le_abs_sub s (c + p)
      linarith
    have hc0 := abs_nonneg c
    have hv0 := abs_nonneg v
    have hp0 := abs_nonneg p
    have hww : w ≤ 1 / 2 ^ 126 := by rw [hw]; norm_num
    have huu : u ≤ 1 / 2 ^ 40 := by rw [hu]; norm_num
    have d1 : u * (|v| + w) ≤ 1 / 2 ^ 40 * (|v| + 1 / 2 ^ 126) := mul_le_mul huu (by linarith) (by positivity) (by norm_num)
    have d2 : u * (|c + p| + w) ≤ 1 / 2 ^ 40 * (|c| + |p| + 1 / 2 ^ 126) := mul_le_mul huu (by linarith) (by positivity) (by norm_num)
    have t1 := abs_sub_le (r32 s) s (c + v)
    have t2 := abs_sub_le s (c + p) (c + v)
    have t3 : |c + p - (c + v)| = |p - v| := by congr 1; ring
    have t4 : r32 s - c - v = r32 s - (c + v) := by ring
    rw [t4]
    have hw126 : (0 : ℝ) ≤ 1 / 2 ^ 126 := by positivity
    have s1 : |p - v| ≤ 1 / 2 ^ 40 * (|v| + 1 / 2 ^ 126) := a1.trans d1
    have s2 : |s - (c + p)| ≤ 1 / 2 ^ 40 * (|c| + |p| + 1 / 2 ^ 126) := a2.trans d2
    have s3 : |p| ≤ |v| + 1 / 2 ^ 40 * (|v| + 1 / 2 ^ 126) := b1.trans (by linarith)
    have s4 : |s| ≤ |c| + |p| + 1 / 2 ^ 40 * (|c| + |p| + 1 / 2 ^ 126) := b3.trans (by linarith)
    rw [t3] at t2
    generalize (1 : ℝ) / 2 ^ 126 = a126 at *
    clear_value c v p s u w
    generalize |c| = C1 at *
    generalize |v| = V1 at *
    generalize |p| = P1 at *
    generalize |s| = S1 at *
    generalize |p - v| = X1 at *
    generalize |s - (c + p)| = X2 at *
    generalize |s - (c + v)| = X3 at *
    generalize |r32 s - s| = X4 at *
    generalize |r32 s - (c + v)| = X5 at *
    clear a1 a2 b1 b3 d1 d2
    linarith
  have hFN : Real.sqrt (∑ k ∈ Finset.range bd, (f * normal i k) ^ 2) = f * N := by
    simp only [mul_pow, ← Finset.mul_sum]
    rw [Real.sqrt_mul (sq_nonneg f), Real.sqrt_sq hf0]
  have hD := ball_distance bd (fun k => z (dstart + k)) (fun k => S.center.getD (dstart + k) 0) (fun k => f * normal i k) (f * N) C (3 / 2 ^ 25) (1 / 2 ^ 126) (by norm_num) (by positivity) hFN rfl
    herr
  have hC0 : 0 ≤ C := Real.sqrt_nonneg _
  have hmain : |D - scal i * R| ≤ E := by
    have t := abs_sub_le D (f * N) (scal i * R)
    have hF := (abs_le.1 hfN).2
    have hbd0 : (0 : ℝ) ≤ bd := Nat.cast_nonneg _
    have hb1 : bd ≠ 0 := by
      intro h0
      have : N = 0 := by simp [N, h0]
      rw [this] at hN1
      norm_num at hN1
    have hb1' : (1 : ℝ) ≤ bd := by exact_mod_cast Nat.one_le_iff_ne_zero.2 hb1
    have hw126 : (0 : ℝ) ≤ 1 / 2 ^ 126 := by positivity
    have hbw : 1 / 2 ^ 126 ≤ (bd : ℝ) * (1 / 2 ^ 126) := le_mul_of_one_le_left hw126 hb1'
    have hE : E = 1 / 2 ^ 23 * (C + scal i * R + bd * (1 / 2 ^ 126)) := by simp only [E]; ring
    rw [hE]
    have hD' : |D - f * N| ≤ 3 / 2 ^ 25 * (C + f * N + bd * (1 / 2 ^ 126)) := hD
    generalize (1 : ℝ) / 2 ^ 126 = a126 at *
    linarith
  refine ⟨fun k hk => by rw [hz k hk]; exact h32.mem _, hmain, fun h h1 h2 => ?_⟩
  have hm := abs_le.1 hmain
  have k1 : h * R ≤ scal i * R := mul_le_mul_of_nonneg_right h1 hR
  have k2 : scal i * R ≤ 1 * R := mul_le_mul_of_nonneg_right h2 hR
  constructor <;> linarith

/-- **C115, times in a cylinder.** The time of an event in a cylinder is a `float32` number between the limits of the cylinder, rounded twice. -/
theorem C115_cylinder {r32 r64 rS : ℝ → ℝ} (h32 : IsRoundingTo Binary32 r32) (hS : IsRoundingTo Binary32 rS ∨ IsRoundingTo Binary64 rS) (scal : ℕ → ℝ) (normal : ℕ → ℕ → ℝ)
    (time : ℕ → ℝ → ℝ → ℝ) (htime : ∀ i low high, low ≤ high → low ≤ time i low high ∧ time i low high ≤ high) (dim : ℕ) (S : CoordinateShape) (hn : S.name = "cylinder") (i : ℕ)
    (hd : 0 ≤ S.duration.getD 0) :
    let lo := S.center.getD 0 0 - S.duration.getD 0 / 2
    let hi := S.center.getD 0 0 + S.duration.getD 0 / 2
    let z := sprinkleBall32 r32 r64 rS scal normal time dim S i 0
    z ∈ Binary32 ∧ r32 (rS lo) ≤ z ∧ z ≤ r32 (rS hi) ∧ (lo ∈ Binary32 → lo ≤ z) ∧ (hi ∈ Binary32 → z ≤ hi) ∧
      lo - (|lo| + 1 / 2 ^ 126) / 2 ^ 22 ≤ z ∧ z ≤ hi + (|hi| + 1 / 2 ^ 126) / 2 ^ 22 := by
  intro lo hi z
  have hz : z = r32 (time i (rS lo) (rS hi)) := by
    simp only [z, sprinkleBall32, hn]
    rw [if_pos (by decide)]
  have hmono : ∀ a b, a ≤ b → rS a ≤ rS b := by
    rcases hS with h | h
    · exact fun a b => h.mono
    · exact fun a b => h.mono
  have hfix : ∀ a ∈ Binary32, rS a = a := by
    rcases hS with h | h
    · exact fun a ha => h.fix ha
    · exact fun a ha => h.fix (C115_ieee.2.2.1 ha)
  have herr : ∀ a, |rS a - a| ≤ 1 / 2 ^ 24 * (|a| + 1 / 2 ^ 126) := by
    intro a
    have key : ∀ {p : ℕ} {emin : ℤ}, 24 ≤ p → emin ≤ -149 → IsRoundingTo (FloatNum p emin) rS → |rS a - a| ≤ 1 / 2 ^ 24 * (|a| + 1 / 2 ^ 126) := by
      intro p emin hp he h
      refine (roundErr_floatNum (by omega) h (1 / 2 ^ 24) (1 / 2 ^ 126) ?_ ?_).err a
      · have : (2 : ℝ) ^ (-24 : ℤ) = 1 / 2 ^ 24 := by rw [zpow_neg, one_div]; norm_cast
        rw [← this]; exact zpow_le_zpow_right₀ (by norm_num) (by omega)
      · have : (1 : ℝ) / 2 ^ 24 * (1 / 2 ^ 126) = 2 ^ (-150 : ℤ) := by rw [zpow_neg]; norm_num
        rw [this]; exact zpow_le_zpow_right₀ (by norm_num) (by omega)
    rcases hS with h | h
    · exact key (p := 24) (emin := -149) le_rfl le_rfl h
    · exact key (p := 53) (emin := -1074) (by norm_num) (by norm_num) h
  have herr32 : ∀ a, |r32 a - a| ≤ 1 / 2 ^ 24 * (|a| + 1 / 2 ^ 126) := by
    intro a
    refine (roundErr_floatNum (p := 24) (emin := -149) (by norm_num) h32 (1 / 2 ^ 24) (1 / 2 ^ 126) ?_ ?_).err a
    · rw [zpow_neg, one_div]; norm_cast
    · have : (1 : ℝ) / 2 ^ 24 * (1 / 2 ^ 126) = 2 ^ (-150 : ℤ) := by rw [zpow_neg]; norm_num
      rw [this]; norm_num
  have both : ∀ a, |r32 (rS a) - a| ≤ (|a| + 1 / 2 ^ 126) / 2 ^ 22 := by
    intro a
    have h1 := herr a
    have h2 := herr32 (rS a)
    have h3 := abs_sub_le (r32 (rS a)) (rS a) a
    have h4 := abs_sub_abs_le_abs_sub (rS a) a
    have h5 := abs_nonneg a
    have hw126 : (0 : ℝ) ≤ 1 / 2 ^ 126 := by positivity
    generalize (1 : ℝ) / 2 ^ 126 = a126 at *
    linarith
  obtain ⟨d1, d2⟩ := htime i (rS lo) (rS hi) (hmono _ _ (by simp only [lo, hi]; linarith))
  have z1 : r32 (rS lo) ≤ z := by rw [hz]; exact h32.mono d1
  have z2 : z ≤ r32 (rS hi) := by rw [hz]; exact h32.mono d2
  refine ⟨by rw [hz]; exact h32.mem _, z1, z2, fun h => ?_, fun h => ?_, ?_, ?_⟩
  · rwa [hfix _ h, h32.fix h] at z1
  · rwa [hfix _ h, h32.fix h] at z2
  · have := (abs_le.1 (both lo)).1; linarith
  · have := (abs_le.1 (both hi)).2; linarith

/-- the assumptions of `C115_ball` and `C115_cylinder` are met by a hollow cylinder in three dimensions around (1, 2, 3) -/
example : ∃ (S : CoordinateShape) (scal : ℕ → ℝ) (normal : ℕ → ℕ → ℝ), S.name = "cylinder" ∧ 0 ≤ S.radius.getD 0 ∧ 0 ≤ S.duration.getD 0 ∧ S.hollow.getD 0 ≤ scal 0 ∧ scal 0 ≤ 1 ∧
    1 / 2 ^ 50 ≤ Real.sqrt (∑ k ∈ Finset.range 2, normal 0 k ^ 2) ∧ Real.sqrt (∑ k ∈ Finset.range 2, normal 0 k ^ 2) ≤ 2 ^ 50 := by
  refine ⟨{ dim := 3, name := "cylinder", center := [1, 2, 3], radius := some 2, duration := some 4, hollow := some (1 / 2), edge := none, edges := none }, fun _ => 3 / 4,
    fun _ k => if k = 0 then 3 else 4, rfl, ?_, ?_, ?_, ?_, ?_, ?_⟩
  · norm_num
  · norm_num
  · norm_num
  · norm_num
  · have : Real.sqrt (∑ k ∈ Finset.range 2, (if k = 0 then (3 : ℝ) else 4) ^ 2) = 5 := by
      rw [Finset.sum_range_succ, Finset.sum_range_one, if_pos rfl, if_neg one_ne_zero, show (3 : ℝ) ^ 2 + 4 ^ 2 = 5 ^ 2 by norm_num, Real.sqrt_sq (by norm_num)]
    rw [this]; norm_num
  · have : Real.sqrt (∑ k ∈ Finset.range 2, (if k = 0 then (3 : ℝ) else 4) ^ 2) = 5 := by
      rw [Finset.sum_range_succ, Finset.sum_range_one, if_pos rfl, if_neg one_ne_zero, show (3 : ℝ) ^ 2 + 4 ^ 2 = 5 ^ 2 by norm_num, Real.sqrt_sq (by norm_num)]
    rw [this]; norm_num

end Causets
