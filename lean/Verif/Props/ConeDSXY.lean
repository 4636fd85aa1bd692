import Verif.Props.ConeDS

/-! # C84 — causal cones of de Sitter spacetime: spatial slices -/

namespace Causets

/-! ## The ellipse -/

theorem tanh_add_real (u v : ℝ) : Real.tanh (u + v) = (Real.tanh u + Real.tanh v) / (1 + Real.tanh u * Real.tanh v) := by
  have hu := Real.cosh_pos u
  have hv := Real.cosh_pos v
  have huv := Real.cosh_pos (u + v)
  rw [Real.tanh_eq_sinh_div_cosh, Real.tanh_eq_sinh_div_cosh, Real.tanh_eq_sinh_div_cosh]
  have e : 1 + Real.sinh u / Real.cosh u * (Real.sinh v / Real.cosh v) = Real.cosh (u + v) / (Real.cosh u * Real.cosh v) := by
    rw [Real.cosh_add]; field_simp
  have e2 : Real.sinh u / Real.cosh u + Real.sinh v / Real.cosh v = Real.sinh (u + v) / (Real.cosh u * Real.cosh v) := by
    rw [Real.sinh_add]; field_simp
  rw [e, e2]
  field_simp

/-- the points of the ellipse of the code are null separated from the event (in units of the radius, rotated): `R` is the distance of the event from the
origin, `tau` the hyperbolic tangent of the time, `c` and `s` the cosine and sine of the parameter -/
theorem ellipse_null {R tau c s : ℝ} (hR0 : 0 ≤ R) (hR1 : R < 1) (ht0 : 0 ≤ tau) (ht1 : tau < 1) (hcs : c ^ 2 + s ^ 2 = 1) :
    let D := 1 - R ^ 2 * tau ^ 2
    let X := (R * (1 - tau ^ 2) + tau * (1 - R ^ 2) * c) / D
    let Y2 := (1 - R ^ 2) * tau ^ 2 / D * s ^ 2
    0 < D ∧ 1 - R * X = (1 - R ^ 2) * (1 - R * tau * c) / D ∧ 1 - X ^ 2 - Y2 = (1 - R ^ 2) * (1 - tau ^ 2) * ((1 - R * tau * c) / D) ^ 2 ∧ 0 < 1 - R * tau * c := by
  intro D X Y2
  have hRt : R * tau < 1 := by nlinarith
  have hRt0 : 0 ≤ R * tau := mul_nonneg hR0 ht0
  have hD : 0 < D := by
    have : (R * tau) ^ 2 < 1 := by nlinarith
    show 0 < 1 - R ^ 2 * tau ^ 2
    nlinarith
  have hc : c ≤ 1 := by nlinarith [sq_nonneg s]
  refine ⟨hD, ?_, ?_, by nlinarith⟩
  · show 1 - R * ((R * (1 - tau ^ 2) + tau * (1 - R ^ 2) * c) / D) = _
    rw [eq_div_iff hD.ne', sub_mul, mul_assoc, div_mul_cancel₀ _ hD.ne']
    show 1 * (1 - R ^ 2 * tau ^ 2) - _ = _
    ring
  · have hs : s ^ 2 = 1 - c ^ 2 := by linarith
    show 1 - ((R * (1 - tau ^ 2) + tau * (1 - R ^ 2) * c) / D) ^ 2 - (1 - R ^ 2) * tau ^ 2 / D * s ^ 2 = _
    rw [hs]
    have : D = 1 - R ^ 2 * tau ^ 2 := rfl
    field_simp
    rw [this]
    ring

/-- the parameters of the ellipse in the code -/
theorem ellipse_params {alpha R delta : ℝ} (ha : 0 < alpha) (hR0 : 0 ≤ R) (hR1 : R < 1) (hd : 0 ≤ delta) :
    let tau := Real.tanh delta
    let D := 1 - R ^ 2 * tau ^ 2
    let xi := alpha * Real.tanh (Real.artanh R - delta)
    let xo := alpha * Real.tanh (Real.artanh R + delta)
    let xc := 0.5 * (xo + xi)
    let a := 0.5 * (xo - xi)
    0 ≤ tau ∧ tau < 1 ∧ xc = alpha * (R * (1 - tau ^ 2) / D) ∧ a = alpha * (tau * (1 - R ^ 2) / D) ∧
    (if test (R > 0 ∧ a > 0) then
        Real.sqrt ((alpha * Real.sqrt ((1 - R ^ 2) * tau ^ 2 + R ^ 2) * Real.sin (Real.arctan (Real.sqrt (1 - R ^ 2) * tau / R) / 1)) ^ 2 /
          (1 - ((alpha * Real.sqrt ((1 - R ^ 2) * tau ^ 2 + R ^ 2) * Real.cos (Real.arctan (Real.sqrt (1 - R ^ 2) * tau / R) / 1) - xc) / a) ^ 2))
      else a) ^ 2 = alpha ^ 2 * ((1 - R ^ 2) * tau ^ 2 / D) := by
  intro tau D xi xo xc a
  have ht0 : 0 ≤ tau := by
    have := (tanh_lt_tanh_iff' 0 delta).2 hd
    simpa using this
  have ht1 : tau < 1 := Real.tanh_lt_one _
  have hRt : R * tau < 1 := by nlinarith
  have hRt0 : 0 ≤ R * tau := mul_nonneg hR0 ht0
  have hD : 0 < D := by
    have : (R * tau) ^ 2 < 1 := by nlinarith
    show 0 < 1 - R ^ 2 * tau ^ 2
    nlinarith
  have hDe : D = 1 - R ^ 2 * tau ^ 2 := rfl
  have hat : Real.tanh (Real.artanh R) = R := Real.tanh_artanh ⟨by linarith, hR1⟩
  have hxo : xo = alpha * ((R + tau) / (1 + R * tau)) := by
    show alpha * Real.tanh (Real.artanh R + delta) = _
    rw [tanh_add_real, hat]
  have hxi : xi = alpha * ((R - tau) / (1 - R * tau)) := by
    show alpha * Real.tanh (Real.artanh R - delta) = _
    rw [sub_eq_add_neg, tanh_add_real, hat, Real.tanh_neg]
    show alpha * ((R + -tau) / (1 + R * -tau)) = _
    rw [← sub_eq_add_neg, mul_neg, ← sub_eq_add_neg]
  have hDf : D = (1 + R * tau) * (1 - R * tau) := by rw [hDe]; ring
  have h1 : (0 : ℝ) < 1 + R * tau := by linarith
  have h2 : (0 : ℝ) < 1 - R * tau := by linarith
  have hxc : xc = alpha * (R * (1 - tau ^ 2) / D) := by
    show 0.5 * (xo + xi) = _
    rw [hxo, hxi, hDf]
    field_simp
    ring
  have haa : a = alpha * (tau * (1 - R ^ 2) / D) := by
    show 0.5 * (xo - xi) = _
    rw [hxo, hxi, hDf]
    field_simp
    ring
  refine ⟨ht0, ht1, hxc, haa, ?_⟩
  have hR2 : 0 < 1 - R ^ 2 := by nlinarith
  split_ifs with hif
  · have hif' : R > 0 ∧ a > 0 := by simpa [test] using hif
    obtain ⟨hRp, hap⟩ := hif'
    have htp : 0 < tau := by
      rcases ht0.lt_or_eq with h | h
      · exact h
      · exfalso; rw [haa, ← h] at hap; simp at hap
    set S := Real.sqrt (1 - R ^ 2) with hS
    have hSS : S ^ 2 = 1 - R ^ 2 := Real.sq_sqrt hR2.le
    have hSp : 0 < S := Real.sqrt_pos.2 hR2
    have hsum : (1 - R ^ 2) * tau ^ 2 + R ^ 2 = R ^ 2 * (1 + (S * tau / R) ^ 2) := by
      rw [← hSS]; field_simp; ring
    have hsq : Real.sqrt ((1 - R ^ 2) * tau ^ 2 + R ^ 2) = R * Real.sqrt (1 + (S * tau / R) ^ 2) := by
      rw [hsum, Real.sqrt_mul (sq_nonneg _), Real.sqrt_sq hRp.le]
    have hq : 0 < Real.sqrt (1 + (S * tau / R) ^ 2) := Real.sqrt_pos.2 (by positivity)
    have hsin : alpha * Real.sqrt ((1 - R ^ 2) * tau ^ 2 + R ^ 2) * Real.sin (Real.arctan (S * tau / R) / 1) = alpha * (S * tau) := by
      rw [div_one, Real.sin_arctan, hsq]
      field_simp
    have hcos : alpha * Real.sqrt ((1 - R ^ 2) * tau ^ 2 + R ^ 2) * Real.cos (Real.arctan (S * tau / R) / 1) = alpha * R := by
      rw [div_one, Real.cos_arctan, hsq]
      field_simp
    rw [hsin, hcos]
    have hfrac : (alpha * R - xc) / a = R * tau := by
      rw [hxc, haa, hDe] at *
      have : (1 : ℝ) - R ^ 2 * tau ^ 2 ≠ 0 := hD.ne'
      have h3 : (1 : ℝ) - R ^ 2 ≠ 0 := hR2.ne'
      field_simp
      ring
    rw [hfrac, Real.sq_sqrt]
    · rw [mul_pow, mul_pow, hSS, hDe, mul_pow, mul_div_assoc]
    · apply div_nonneg (sq_nonneg _)
      rw [mul_pow]; exact hD.le
  · have hif' : ¬ (R > 0 ∧ a > 0) := by simpa [test] using hif
    rw [haa, mul_pow]
    congr 1
    by_cases hRp : R > 0
    · have hap : ¬ a > 0 := fun h => hif' ⟨hRp, h⟩
      have htau : tau = 0 := by
        rcases ht0.lt_or_eq with h | h
        · exfalso; apply hap; rw [haa]; positivity
        · exact h.symm
      rw [htau]; simp
    · have : R = 0 := le_antisymm (not_lt.1 hRp) hR0
      rw [hDe, this]; simp

/-! ## Slices -/

/-- the rotation of the ellipse -/
noncomputable def rot2 (phi : ℝ) (p : ℝ × ℝ) : ℝ × ℝ := (p.1 * Real.cos phi - p.2 * Real.sin phi, p.1 * Real.sin phi + p.2 * Real.cos phi)

theorem turn_rot2 (phi : ℝ) (c p q : ℝ × ℝ) : turn (rot2 phi c) (rot2 phi p) (rot2 phi q) = turn c p q := by
  unfold turn rot2
  have := Real.sin_sq_add_cos_sq phi
  dsimp only
  linear_combination ((p.1 - c.1) * (q.2 - c.2) - (p.2 - c.2) * (q.1 - c.1)) * this

theorem isRing_map {curve curve' : Set (ℝ × ℝ)} {m : ℕ} {c : ℝ × ℝ} {a : ℝ} {rows : List (Option (ℝ × ℝ))} (f : ℝ × ℝ → ℝ × ℝ) (h : IsRing curve m c a rows)
    (hf : ∀ p ∈ curve, some p ∈ rows → f p ∈ curve') (ht : ∀ p q, turn (f c) (f p) (f q) = turn c p q) : IsRing curve' m (f c) a (rows.map (Option.map f)) := by
  obtain ⟨h1, h2, h3, h4⟩ := h
  refine ⟨by simpa using h1, by simp only [List.getElem?_map, h2], fun k hk => ?_, fun k hk p q hp hq => ?_⟩
  · obtain ⟨p, hp, hpk⟩ := h3 k hk
    exact ⟨f p, hf p hp (List.mem_of_getElem? hpk), by simp [List.getElem?_map, hpk]⟩
  · obtain ⟨p', -, hpk⟩ := h3 k (by omega)
    obtain ⟨q', -, hqk⟩ := h3 (k + 1) (by omega)
    rw [List.getElem?_map, hpk] at hp
    rw [List.getElem?_map, hqk] at hq
    simp only [Option.map_some, Option.some.injEq] at hp hq
    rw [← hp, ← hq, ht]
    exact h4 k hk p' q' hpk hqk

theorem filterMap_some (l : List (ℝ × ℝ)) (f : ℝ × ℝ → ℝ × ℝ) : ((l.map some).filterMap (Option.map f)) = l.map f := by
  induction l with
  | nil => rfl
  | cons x t ih => simpa using ih

/-- **Specification.** The positions in the plane of the dimensions `d0`, `d1` that are on the light cone of `o` at the time `t`: their images on the hyperboloid are
light-like separated in the ambient Minkowski spacetime. -/
def dSLightCurve (dim : ℕ) (alpha : ℝ) (o : Point) (t : ℝ) (d0 d1 : ℕ) : Set (ℝ × ℝ) :=
  {v | InHorizon dim alpha (pointAt o t [d0, d1] [v.1, v.2]) ∧ LightLike (dim + 1) (dSEmbed dim alpha o) (dSEmbed dim alpha (pointAt o t [d0, d1] [v.1, v.2]))}

theorem sum_plane {dim d0 d1 : ℕ} (h0 : 1 ≤ d0) (h0' : d0 < dim) (h1 : 1 ≤ d1) (h1' : d1 < dim) (hne : d0 ≠ d1) (f : ℕ → ℝ)
    (hz : ∀ j, 1 ≤ j → j < dim → j ≠ d0 → j ≠ d1 → f j = 0) : ∑ i ∈ Finset.Ico 1 dim, f i = f d0 + f d1 := by
  rw [← Finset.sum_subset (s₁ := {d0, d1}) (by intro i hi; simp only [Finset.mem_insert, Finset.mem_singleton] at hi; rw [Finset.mem_Ico]; omega)
    (by
      intro i hi hni
      simp only [Finset.mem_insert, Finset.mem_singleton, not_or] at hni
      rw [Finset.mem_Ico] at hi
      exact hz i hi.1 hi.2 hni.1 hni.2), Finset.sum_pair hne]

/-- a point `alpha (X, Y)` of the rotated ellipse is null separated -/
theorem dS_null {dim d0 d1 : ℕ} (h0 : 1 ≤ d0) (h0' : d0 < dim) (h1 : 1 ≤ d1) (h1' : d1 < dim) (hne : d0 ≠ d1) {alpha : ℝ} (ha : 0 < alpha) {o : Point}
    (ho : InHorizon dim alpha o) (hz : ∀ j, 1 ≤ j → j < dim → j ≠ d0 → j ≠ d1 → o j = 0) {t R phi X Y c s : ℝ} (hR0 : 0 ≤ R) (hR1 : R < 1)
    (ho0 : o d0 = alpha * (R * Real.cos phi)) (ho1 : o d1 = alpha * (R * Real.sin phi)) (hcs : c ^ 2 + s ^ 2 = 1)
    (hX : X = (R * (1 - Real.tanh (|t - o 0| / alpha) ^ 2) + Real.tanh (|t - o 0| / alpha) * (1 - R ^ 2) * c) / (1 - R ^ 2 * Real.tanh (|t - o 0| / alpha) ^ 2))
    (hY : Y ^ 2 = (1 - R ^ 2) * Real.tanh (|t - o 0| / alpha) ^ 2 / (1 - R ^ 2 * Real.tanh (|t - o 0| / alpha) ^ 2) * s ^ 2) :
    rot2 phi (alpha * X, alpha * Y) ∈ dSLightCurve dim alpha o t d0 d1 := by
  set delta := |t - o 0| / alpha with hdelta
  have hd0 : 0 ≤ delta := div_nonneg (abs_nonneg _) ha.le
  set tau := Real.tanh delta with htau
  have ht0 : 0 ≤ tau := by
    have := (tanh_lt_tanh_iff' 0 delta).2 hd0
    simpa using this
  have ht1 : tau < 1 := Real.tanh_lt_one _
  obtain ⟨hD, e1, e2, hpos⟩ := ellipse_null hR0 hR1 ht0 ht1 hcs
  rw [← hX] at e1 e2
  rw [← hY] at e2
  set D := 1 - R ^ 2 * tau ^ 2
  set K := (1 - R * tau * c) / D with hK
  have hKp : 0 < K := div_pos hpos hD
  have hR2 : 0 < 1 - R ^ 2 := by nlinarith
  have ht2 : 0 < 1 - tau ^ 2 := by nlinarith
  have hphi := Real.sin_sq_add_cos_sq phi
  set v := rot2 phi (alpha * X, alpha * Y) with hv
  have hv1 : v.1 = alpha * X * Real.cos phi - alpha * Y * Real.sin phi := rfl
  have hv2 : v.2 = alpha * X * Real.sin phi + alpha * Y * Real.cos phi := rfl
  have hq : pointAt o t [d0, d1] [v.1, v.2] = fun j => if j = d0 then v.1 else if j = d1 then v.2 else if j = 0 then t else o j := pointAt2 o t d0 d1 hne v.1 v.2
  set q := pointAt o t [d0, d1] [v.1, v.2] with hqdef
  have q0 : q d0 = v.1 := by rw [hq]; simp
  have q1 : q d1 = v.2 := by rw [hq]; simp [Ne.symm hne]
  have qt : q 0 = t := by rw [hq]; simp [show (0 : ℕ) ≠ d0 by omega, show (0 : ℕ) ≠ d1 by omega]
  have qz : ∀ j, 1 ≤ j → j < dim → j ≠ d0 → j ≠ d1 → q j = 0 := by
    intro j hj hj' hj0 hj1
    rw [hq]; simp [hj0, hj1, show j ≠ 0 by omega, hz j hj hj' hj0 hj1]
  have hsq : ∑ i ∈ Finset.Ico 1 dim, (q i) ^ 2 = alpha ^ 2 * (X ^ 2 + Y ^ 2) := by
    rw [sum_plane h0 h0' h1 h1' hne (fun i => (q i) ^ 2) (fun j a b c d => by simp [qz j a b c d])]
    rw [q0, q1, hv1, hv2]
    linear_combination (alpha ^ 2 * (X ^ 2 + Y ^ 2)) * hphi
  have hosq : ∑ i ∈ Finset.Ico 1 dim, (o i) ^ 2 = alpha ^ 2 * R ^ 2 := by
    rw [sum_plane h0 h0' h1 h1' hne (fun i => (o i) ^ 2) (fun j a b c d => by simp [hz j a b c d])]
    rw [ho0, ho1]
    linear_combination (alpha ^ 2 * R ^ 2) * hphi
  have hdot : ∑ i ∈ Finset.Ico 1 dim, o i * q i = alpha ^ 2 * (R * X) := by
    rw [sum_plane h0 h0' h1 h1' hne (fun i => o i * q i) (fun j a b c d => by simp [hz j a b c d])]
    rw [q0, q1, hv1, hv2, ho0, ho1]
    linear_combination (alpha ^ 2 * (R * X)) * hphi
  have hin : InHorizon dim alpha q := by
    unfold InHorizon
    rw [hsq]
    have h3 : 0 < 1 - X ^ 2 - Y ^ 2 := by rw [e2]; positivity
    have h4 : 0 < alpha ^ 2 := by positivity
    nlinarith
  refine ⟨hin, ?_⟩
  have hi := dSEmbed_interval (show 2 ≤ dim by omega) ho hin
  have hA : dSAmp dim alpha o = alpha * Real.sqrt (1 - R ^ 2) := by
    unfold dSAmp
    rw [hosq, show alpha ^ 2 - alpha ^ 2 * R ^ 2 = alpha ^ 2 * (1 - R ^ 2) by ring, Real.sqrt_mul (sq_nonneg _), Real.sqrt_sq ha.le]
  have hB : dSAmp dim alpha q = alpha * (Real.sqrt (1 - R ^ 2) * Real.sqrt (1 - tau ^ 2) * K) := by
    unfold dSAmp
    rw [hsq, show alpha ^ 2 - alpha ^ 2 * (X ^ 2 + Y ^ 2) = alpha ^ 2 * (1 - X ^ 2 - Y ^ 2) by ring, e2, Real.sqrt_mul (sq_nonneg _), Real.sqrt_sq ha.le,
      Real.sqrt_mul (by positivity), Real.sqrt_mul hR2.le, Real.sqrt_sq hKp.le]
  have hcosh : Real.cosh ((q 0 - o 0) / alpha) = 1 / Real.sqrt (1 - tau ^ 2) := by
    have e : Real.cosh ((q 0 - o 0) / alpha) = Real.cosh delta := by
      rw [qt, hdelta, ← Real.cosh_abs, abs_div, abs_of_pos ha]
    rw [e, eq_div_iff (Real.sqrt_pos.2 ht2).ne', htau]
    have hc := Real.cosh_pos delta
    have : 1 - Real.tanh delta ^ 2 = 1 / Real.cosh delta ^ 2 := by
      rw [Real.tanh_eq_sinh_div_cosh, div_pow, Real.sinh_sq]
      field_simp
      ring
    rw [this, Real.sqrt_div (by norm_num), Real.sqrt_one, Real.sqrt_sq hc.le]
    field_simp
  have hnull : dSAmp dim alpha o * dSAmp dim alpha q * Real.cosh ((q 0 - o 0) / alpha) + ∑ i ∈ Finset.Ico 1 dim, o i * q i - alpha ^ 2 = 0 := by
    rw [hA, hB, hcosh, hdot]
    have s1 : Real.sqrt (1 - R ^ 2) * Real.sqrt (1 - R ^ 2) = 1 - R ^ 2 := Real.mul_self_sqrt hR2.le
    have s2 : Real.sqrt (1 - tau ^ 2) ≠ 0 := (Real.sqrt_pos.2 ht2).ne'
    have : alpha * Real.sqrt (1 - R ^ 2) * (alpha * (Real.sqrt (1 - R ^ 2) * Real.sqrt (1 - tau ^ 2) * K)) * (1 / Real.sqrt (1 - tau ^ 2)) =
        alpha ^ 2 * ((Real.sqrt (1 - R ^ 2) * Real.sqrt (1 - R ^ 2)) * K) := by field_simp
    rw [this, s1]
    have e1' : 1 - R * X = (1 - R ^ 2) * K := by rw [e1, hK]; ring
    linear_combination (-alpha ^ 2) * e1'
  rw [hnull] at hi
  unfold LightLike
  unfold spaceSq at hi
  linarith

/-- the slice of the code -/
theorem dSXY_slice (junk : ℕ → Option (ℝ × ℝ)) {dim d0 d1 : ℕ} (h0 : 1 ≤ d0) (h0' : d0 < dim) (h1 : 1 ≤ d1) (h1' : d1 < dim) (hne : d0 ≠ d1) {alpha : ℝ} (ha : 0 < alpha)
    {o : Point} (ho : InHorizon dim alpha o) (hz : ∀ j, 1 ≤ j → j < dim → j ≠ d0 → j ≠ d1 → o j = 0) (t : ℝ) :
    ∃ rows, dSXY junk dim alpha t o d0 d1 = some rows ∧ rows.length = 129 ∧ (∀ v ∈ rows, v ∈ dSLightCurve dim alpha o t d0 d1) ∧
      (t = o 0 → ∀ v ∈ rows, v = (o d0, o d1)) ∧
      (t ≠ o 0 → ∃ c A, 0 < A ∧ IsRing (dSLightCurve dim alpha o t d0 d1) 128 c A (rows.map some)) := by
  have hnot : ¬ ((∑ i ∈ Finset.Ico 1 dim, (o i) ^ 2) / alpha ^ 2 ≥ 1) := by
    unfold InHorizon at ho
    rw [ge_iff_le, not_le, div_lt_one (by positivity)]; exact ho
  set r0sq := (∑ i ∈ Finset.Ico 1 dim, (o i) ^ 2) / alpha ^ 2 with hr0
  have hr0n : 0 ≤ r0sq := div_nonneg (Finset.sum_nonneg fun i _ => sq_nonneg _) (sq_nonneg _)
  set R := Real.sqrt r0sq with hR
  have hR2 : R ^ 2 = r0sq := Real.sq_sqrt hr0n
  have hR0 : 0 ≤ R := Real.sqrt_nonneg _
  have hR1 : R < 1 := by
    rw [not_le] at hnot
    have : R ^ 2 < 1 := by rw [hR2]; exact hnot
    nlinarith
  set phi := Complex.arg ⟨o d0, o d1⟩ with hphi
  have hnorm : ‖(⟨o d0, o d1⟩ : ℂ)‖ = alpha * R := by
    rw [Complex.norm_def, Complex.normSq_mk]
    rw [show o d0 * o d0 + o d1 * o d1 = (alpha * R) ^ 2 by
      rw [mul_pow, hR2, hr0, sum_plane h0 h0' h1 h1' hne (fun i => (o i) ^ 2) (fun j a b c d => by simp [hz j a b c d])]
      field_simp]
    exact Real.sqrt_sq (by positivity)
  have ho0 : o d0 = alpha * (R * Real.cos phi) := by
    have := Complex.norm_mul_cos_arg ⟨o d0, o d1⟩
    rw [hnorm] at this
    rw [← mul_assoc]; exact this.symm
  have ho1 : o d1 = alpha * (R * Real.sin phi) := by
    have := Complex.norm_mul_sin_arg ⟨o d0, o d1⟩
    rw [hnorm] at this
    rw [← mul_assoc]; exact this.symm
  have hd0 : 0 ≤ |t - o 0| / alpha := div_nonneg (abs_nonneg _) ha.le
  obtain ⟨ht0, ht1, hxc, haa, hbb⟩ := ellipse_params ha hR0 hR1 hd0
  have hst : ∀ p : Prop, test p = true ↔ p := fun p => by simp [test]
  unfold dSXY
  dsimp only
  rw [← hr0, if_neg (by rw [hst]; exact hnot), ← hR, ← hphi]
  rw [hR2] at hbb
  set tau := Real.tanh (|t - o 0| / alpha) with htau
  set xc := 0.5 * (alpha * Real.tanh (Real.artanh R + |t - o 0| / alpha) + alpha * Real.tanh (Real.artanh R - |t - o 0| / alpha)) with hxcd
  set a := 0.5 * (alpha * Real.tanh (Real.artanh R + |t - o 0| / alpha) - alpha * Real.tanh (Real.artanh R - |t - o 0| / alpha)) with had
  set b := (if test (R > 0 ∧ a > 0) = true then
        Real.sqrt ((alpha * Real.sqrt ((1 - r0sq) * tau ^ 2 + r0sq) * Real.sin (Real.arctan (Real.sqrt (1 - r0sq) * tau / R) / 1)) ^ 2 /
          (1 - ((alpha * Real.sqrt ((1 - r0sq) * tau ^ 2 + r0sq) * Real.cos (Real.arctan (Real.sqrt (1 - r0sq) * tau / R) / 1) - xc) / a) ^ 2))
      else a) with hb
  rw [← hR2] at hbb
  have hell : ellipseEdge junk (xc, 0) (a, b) 0 (-1) =
      ((List.range 129).map (fun k => (xc + a * Real.cos (linspace2pi 129 k), 0 + b * Real.sin (linspace2pi 129 k)))).map some := by
    simp [ellipseEdge, test, samplingRows]
  rw [hell]
  have hmem : ∀ θ : ℝ, rot2 phi (xc + a * Real.cos θ, 0 + b * Real.sin θ) ∈ dSLightCurve dim alpha o t d0 d1 := by
    intro θ
    have := dS_null (t := t) (R := R) (phi := phi) (c := Real.cos θ) (s := Real.sin θ)
      (X := (R * (1 - tau ^ 2) + tau * (1 - R ^ 2) * Real.cos θ) / (1 - R ^ 2 * tau ^ 2)) (Y := b * Real.sin θ / alpha) h0 h0' h1 h1' hne ha ho hz hR0 hR1 ho0 ho1
      (by rw [add_comm]; exact Real.sin_sq_add_cos_sq θ) rfl (by rw [div_pow, mul_pow, hbb, ← htau]; field_simp)
    have e1 : alpha * ((R * (1 - tau ^ 2) + tau * (1 - R ^ 2) * Real.cos θ) / (1 - R ^ 2 * tau ^ 2)) = xc + a * Real.cos θ := by rw [hxc, haa]; ring
    have e2 : alpha * (b * Real.sin θ / alpha) = 0 + b * Real.sin θ := by field_simp; ring
    rw [e1, e2] at this
    exact this
  have hrows : (((List.range 129).map (fun k => (xc + a * Real.cos (linspace2pi 129 k), 0 + b * Real.sin (linspace2pi 129 k)))).map some).filterMap
      (Option.map (fun p => (p.1 * Real.cos phi - p.2 * Real.sin phi, p.1 * Real.sin phi + p.2 * Real.cos phi))) =
      ((List.range 129).map (fun k => (xc + a * Real.cos (linspace2pi 129 k), 0 + b * Real.sin (linspace2pi 129 k)))).map (rot2 phi) := filterMap_some _ (rot2 phi)
  refine ⟨_, rfl, ?_, ?_, ?_, ?_⟩
  · rw [hrows]; simp
  · intro v hv
    rw [hrows] at hv
    simp only [List.mem_map, List.map_map, List.mem_range, Function.comp] at hv
    obtain ⟨k, -, rfl⟩ := hv
    exact hmem _
  · intro ht v hv
    have htau0 : tau = 0 := by rw [htau, ht]; simp
    have ha0 : a = 0 := by rw [haa, htau0]; simp
    have hb0 : b = 0 := by
      have : b ^ 2 = 0 := by rw [hbb, htau0]; simp
      exact pow_eq_zero_iff two_ne_zero |>.1 this
    have hxc0 : xc = alpha * R := by rw [hxc, htau0]; simp
    rw [hrows] at hv
    simp only [List.mem_map, List.map_map, List.mem_range, Function.comp] at hv
    obtain ⟨k, -, rfl⟩ := hv
    rw [ha0, hb0, hxc0, ho0, ho1]
    simp [rot2]; constructor <;> ring
  · intro ht
    have hdp : 0 < |t - o 0| / alpha := div_pos (abs_pos.2 (sub_ne_zero.2 ht)) ha
    have htp : 0 < tau := by
      rcases ht0.lt_or_eq with h | h
      · exact h
      · exfalso
        have : Real.tanh (|t - o 0| / alpha) = Real.tanh 0 := by rw [← htau, Real.tanh_zero]; exact h.symm
        exact hdp.ne' (Real.tanh_injective this)
    have hR2p : 0 < 1 - R ^ 2 := by nlinarith
    have hDp : 0 < 1 - R ^ 2 * tau ^ 2 := by
      have : R * tau < 1 := by nlinarith
      have : (R * tau) ^ 2 < 1 := by nlinarith [mul_nonneg hR0 htp.le]
      nlinarith
    have hap : 0 < a := by rw [haa]; positivity
    have hb0 : 0 ≤ b := by
      rw [hb]; split
      · exact Real.sqrt_nonneg _
      · exact hap.le
    have hbp : 0 < b := by
      refine lt_of_le_of_ne hb0 (fun h => ?_)
      rw [← h] at hbb
      have : 0 < alpha ^ 2 * ((1 - R ^ 2) * tau ^ 2 / (1 - R ^ 2 * tau ^ 2)) := by positivity
      rw [← hbb] at this; simp at this
    have hring := ring_ellipse (xc, 0) hap.ne' hbp.ne' 1 (Or.inl rfl) 128 (by norm_num)
    simp only [one_mul] at hring
    refine ⟨rot2 phi (xc, 0), a * b * Real.sin (2 * Real.pi / (128 : ℕ)), ?_, ?_⟩
    · have : 0 < Real.sin (2 * Real.pi / (128 : ℕ)) := by
        apply Real.sin_pos_of_pos_of_lt_pi
        · have := Real.pi_pos; push_cast; positivity
        · have := Real.pi_pos; push_cast; linarith
      positivity
    · have := isRing_map (curve' := dSLightCurve dim alpha o t d0 d1) (rot2 phi) hring (by
        intro p _ hp
        simp only [List.mem_map, Option.some.injEq] at hp
        obtain ⟨k, -, rfl⟩ := hp
        exact hmem _) (fun p q => turn_rot2 phi _ p q)
      rw [hrows]
      convert this using 1
      simp [List.map_map]

/-- **C84, spatial slices.** For an event of de Sitter spacetime of any dimension inside the horizon that lies in the plotted plane (its other spatial coordinates are 0; in
three dimensions this is every event), `ConePlotter` for two spatial directions draws a closed polygon of 128 sides around the event with all corners on its light cone at the time `ts`.
Nothing is drawn for an event on or beyond the horizon. -/
theorem C84_deSitter_space (sgn : ℝ) (junk : ℕ → Option (ℝ × ℝ)) {dim d0 d1 : ℕ} (h0 : 1 ≤ d0) (h0' : d0 < dim) (h1 : 1 ≤ d1) (h1' : d1 < dim) (hne : d0 ≠ d1) {alpha : ℝ} (ha : 0 < alpha)
    (o : Point) (n : ℤ) (ts : ℝ) :
    (InHorizon dim alpha o → (∀ j, 1 ≤ j → j < dim → j ≠ d0 → j ≠ d1 → o j = 0) → ts ≠ o 0 →
      ∃ rows c A, coneGeom junk (.deSitter dim alpha) [d0, d1] sgn n o ts = .ok (some (.polygon rows)) ∧ 0 < A ∧ IsRing (dSLightCurve dim alpha o ts d0 d1) 128 c A rows) ∧
    (¬ InHorizon dim alpha o → coneGeom junk (.deSitter dim alpha) [d0, d1] sgn n o ts = .ok none) := by
  have hta := timeAxis_none d0 d1 (by omega) (by omega)
  constructor
  · intro ho hz ht
    obtain ⟨rows, e, -, -, -, hr⟩ := dSXY_slice junk h0 h0' h1 h1' hne ha ho hz ts
    obtain ⟨c, A, hA, hring⟩ := hr ht
    refine ⟨rows.map some, c, A, ?_, hA, hring⟩
    simp [coneGeom, dSCone, baseCone, hta, e]
  · intro ho
    have : (∑ i ∈ Finset.Ico 1 dim, (o i) ^ 2) / alpha ^ 2 ≥ 1 := by
      unfold InHorizon at ho
      rw [ge_iff_le, one_le_div (by positivity)]; exact not_lt.1 ho
    have e : dSXY junk dim alpha ts o d0 d1 = none := by
      unfold dSXY; dsimp only; rw [if_pos (by simpa [test] using this)]
    simp [coneGeom, dSCone, baseCone, hta, e]

/-! ## Plots in three dimensions -/

theorem mapM_ok {β : Type} (l : List ℕ) (f : ℕ → β) : l.mapM (fun k => (Except.ok (f k) : Except Err β)) = .ok (l.map f) := by
  induction l with
  | nil => rfl
  | cons x t ih => rw [List.mapM_cons, ih]; rfl

theorem mapM_some {β : Type} (l : List ℕ) (f : ℕ → Option β) (g : ℕ → β) (h : ∀ k, f k = some (g k)) : (l.map f).mapM id = some (l.map g) := by
  induction l with
  | nil => rfl
  | cons x t ih => rw [List.map_cons, List.mapM_cons, ih, id, h x]; rfl

/-- **C84, plots of time and two spatial directions.** For an event of de Sitter spacetime inside the horizon that lies in the plotted plane, and every order of the three axes,
`ConePlotter` draws one surface; its row 0 is the event, its row `i` is at the time `T i` (equal steps from the event to `ts`), and all its points are on the light cone of the event. -/
theorem C84_deSitter_3d (sgn : ℝ) (junk : ℕ → Option (ℝ × ℝ)) {dim d0 d1 d2 : ℕ} (h0 : d0 < dim) (h1 : d1 < dim) (h2 : d2 < dim) (h01 : d0 ≠ d1) (h02 : d0 ≠ d2) (h12 : d1 ≠ d2)
    (hzero : d0 = 0 ∨ d1 = 0 ∨ d2 = 0) {alpha : ℝ} (ha : 0 < alpha) (o : Point) (ho : InHorizon dim alpha o)
    (hz : ∀ j, 1 ≤ j → j < dim → j ≠ d0 → j ≠ d1 → j ≠ d2 → o j = 0) (n : ℤ) (ts : ℝ) :
    ∃ P, coneGeom junk (.deSitter dim alpha) [d0, d1, d2] sgn n o ts = .ok (some (.surfaces [P])) ∧ P.rows = coneSampling n ∧ P.cols = 129 ∧
      (∀ j < P.cols, P.pos 0 j = (o d0, o d1, o d2)) ∧
      ∀ i < P.rows, ∀ j < P.cols, ∃ q : Point, q = pointAt o ts [d0, d1, d2] [(P.pos i j).1, (P.pos i j).2.1, (P.pos i j).2.2] ∧
        q 0 = o 0 + i * ((ts - o 0) / (coneSampling n - 1)) ∧ InHorizon dim alpha q ∧ LightLike (dim + 1) (dSEmbed dim alpha o) (dSEmbed dim alpha q) := by
  have hm : 1 ≤ coneSampling n := by unfold coneSampling; split_ifs <;> omega
  -- the two spatial directions, in the order used by the code
  have key : ∀ x y : ℕ, 1 ≤ x → x < dim → 1 ≤ y → y < dim → x ≠ y → (∀ j, 1 ≤ j → j < dim → j ≠ x → j ≠ y → o j = 0) →
      ∃ rows : ℕ → List (ℝ × ℝ), (∀ k, dSXY junk dim alpha (linspaceR (o 0) ts (coneSampling n) k) o x y = some (rows k)) ∧ (∀ k, (rows k).length = 129) ∧
        (∀ k, ∀ v ∈ rows k, v ∈ dSLightCurve dim alpha o (linspaceR (o 0) ts (coneSampling n) k) x y) ∧ (∀ v ∈ rows 0, v = (o x, o y)) := by
    intro x y hx hx' hy hy' hxy hz'
    choose rows hr using fun k => dSXY_slice junk hx hx' hy hy' hxy ha ho hz' (linspaceR (o 0) ts (coneSampling n) k)
    exact ⟨rows, fun k => (hr k).1, fun k => (hr k).2.1, fun k => (hr k).2.2.1, (hr 0).2.2.2.1 (by simp [linspaceR])⟩
  -- the surface
  have surf : ∀ (ta : ℤ) (x y : ℕ), coneTimeAxis [d0, d1, d2] = ta → 0 ≤ ta → (if ta = 0 then d1 else if ta = 1 then d2 else d0) = x →
      (if ta = 0 then d2 else if ta = 1 then d0 else d1) = y → ∀ rows : ℕ → List (ℝ × ℝ),
      (∀ k, dSXY junk dim alpha (linspaceR (o 0) ts (coneSampling n) k) o x y = some (rows k)) → (∀ k, (rows k).length = 129) →
      ∃ P : Patch, dSCone junk dim alpha [d0, d1, d2] n o ts = .ok (some (.surfaces [P])) ∧ P.rows = coneSampling n ∧ P.cols = 129 ∧
        ∀ i < P.rows, ∀ j < P.cols, ∃ v ∈ rows i, P.pos i j = coneRotate ta (v.1, v.2, linspaceR (o 0) ts (coneSampling n) i) := by
    intro ta x y hta hta0 hx hy rows hrows hlen
    refine ⟨⟨coneSampling n, (((List.range (coneSampling n)).map rows).getD 0 []).length, fun i j =>
      coneRotate ta ((((List.range (coneSampling n)).map rows).getD i []).getD j (0, 0) |>.1, (((List.range (coneSampling n)).map rows).getD i []).getD j (0, 0) |>.2,
        linspaceR (o 0) ts (coneSampling n) i)⟩, ?_, ?_, ?_, ?_⟩
    · simp only [dSCone, baseCone, hta, not_lt.2 hta0, if_false, hx, hy, mapM_ok, mapM_some (List.range (coneSampling n)) _ rows hrows]
    · rfl
    · dsimp only
      rw [List.getD_eq_getElem?_getD, List.getElem?_map, List.getElem?_range (by omega)]
      exact hlen 0
    · intro i hi j hj
      dsimp only at hi hj ⊢
      have e : ∀ i < coneSampling n, ((List.range (coneSampling n)).map rows).getD i [] = rows i := by
        intro i hi
        rw [List.getD_eq_getElem?_getD, List.getElem?_map, List.getElem?_range hi]; rfl
      rw [e 0 (by omega), hlen] at hj
      rw [e i hi]
      have hj' : j < (rows i).length := by rw [hlen]; exact hj
      refine ⟨(rows i)[j], List.getElem_mem hj', ?_⟩
      rw [List.getD_eq_getElem?_getD, List.getElem?_eq_getElem hj']
      rfl
  rcases hzero with rfl | rfl | rfl
  · have hp1 : 1 ≤ d1 := by omega
    have hp2 : 1 ≤ d2 := by omega
    obtain ⟨rows, e, hlen, hcur, hfirst⟩ := key d1 d2 hp1 h1 hp2 h2 h12 (fun j a b c d => hz j a b (by omega) c d)
    obtain ⟨P, hP, hPr, hPc, hpos⟩ := surf 0 d1 d2 (timeAxis3_first d1 d2) le_rfl (by simp) (by simp) rows e hlen
    refine ⟨P, hP, hPr, hPc, fun j hj => ?_, fun i hi j hj => ?_⟩
    · obtain ⟨v, hv, hv'⟩ := hpos 0 (by omega) j hj
      rw [hv', hfirst v hv]; simp [coneRotate, linspaceR]
    · obtain ⟨v, hv, hv'⟩ := hpos i hi j hj
      obtain ⟨c1, c2⟩ := hcur i v hv
      have : pointAt o ts [0, d1, d2] [(P.pos i j).1, (P.pos i j).2.1, (P.pos i j).2.2] = pointAt o (linspaceR (o 0) ts (coneSampling n) i) [d1, d2] [v.1, v.2] := by
        rw [hv', pointAt3 o ts 0 d1 d2 h01 h02 h12, pointAt2 o _ d1 d2 h12]
        funext k
        simp only [coneRotate, if_true]
        split_ifs <;> first | rfl | omega
      refine ⟨_, rfl, ?_, ?_, ?_⟩
      · rw [hv', pointAt3 o ts 0 d1 d2 h01 h02 h12]; simp [coneRotate, linspaceR]
      · rw [this]; exact c1
      · rw [this]; exact c2
  · have hp1 : 1 ≤ d0 := by omega
    have hp2 : 1 ≤ d2 := by omega
    obtain ⟨rows, e, hlen, hcur, hfirst⟩ := key d2 d0 hp2 h2 hp1 h0 h02.symm (fun j a b c d => hz j a b d (by omega) c)
    obtain ⟨P, hP, hPr, hPc, hpos⟩ := surf 1 d2 d0 (by simp [coneTimeAxis, List.idxOf?, List.findIdx?_cons, h01]) (by norm_num) (by simp) (by simp) rows e hlen
    refine ⟨P, hP, hPr, hPc, fun j hj => ?_, fun i hi j hj => ?_⟩
    · obtain ⟨v, hv, hv'⟩ := hpos 0 (by omega) j hj
      rw [hv', hfirst v hv]; simp [coneRotate, linspaceR]
    · obtain ⟨v, hv, hv'⟩ := hpos i hi j hj
      obtain ⟨c1, c2⟩ := hcur i v hv
      have : pointAt o ts [d0, 0, d2] [(P.pos i j).1, (P.pos i j).2.1, (P.pos i j).2.2] = pointAt o (linspaceR (o 0) ts (coneSampling n) i) [d2, d0] [v.1, v.2] := by
        rw [hv', pointAt3 o ts d0 0 d2 h01 h02 h12, pointAt2 o _ d2 d0 h02.symm]
        funext k
        simp only [coneRotate, one_ne_zero, if_false, if_true]
        split_ifs <;> first | rfl | omega
      refine ⟨_, rfl, ?_, ?_, ?_⟩
      · rw [hv', pointAt3 o ts d0 0 d2 h01 h02 h12]; simp [coneRotate, linspaceR, Ne.symm h01]
      · rw [this]; exact c1
      · rw [this]; exact c2
  · have hp1 : 1 ≤ d0 := by omega
    have hp2 : 1 ≤ d1 := by omega
    obtain ⟨rows, e, hlen, hcur, hfirst⟩ := key d0 d1 hp1 h0 hp2 h1 h01 (fun j a b c d => hz j a b c d (by omega))
    obtain ⟨P, hP, hPr, hPc, hpos⟩ := surf 2 d0 d1 (timeAxis3_last d0 d1 (by omega) (by omega)) (by norm_num) (by simp) (by simp) rows e hlen
    refine ⟨P, hP, hPr, hPc, fun j hj => ?_, fun i hi j hj => ?_⟩
    · obtain ⟨v, hv, hv'⟩ := hpos 0 (by omega) j hj
      rw [hv', hfirst v hv]; simp [coneRotate, linspaceR]
    · obtain ⟨v, hv, hv'⟩ := hpos i hi j hj
      obtain ⟨c1, c2⟩ := hcur i v hv
      have : pointAt o ts [d0, d1, 0] [(P.pos i j).1, (P.pos i j).2.1, (P.pos i j).2.2] = pointAt o (linspaceR (o 0) ts (coneSampling n) i) [d0, d1] [v.1, v.2] := by
        rw [hv', pointAt3 o ts d0 d1 0 h01 h02 h12, pointAt2 o _ d0 d1 h01]
        funext k
        simp only [coneRotate, show ¬ ((2 : ℤ) = 0) by norm_num, show ¬ ((2 : ℤ) = 1) by norm_num, if_false]
        split_ifs <;> rfl
      refine ⟨_, rfl, ?_, ?_, ?_⟩
      · rw [hv', pointAt3 o ts d0 d1 0 h01 h02 h12]; simp [coneRotate, linspaceR, Ne.symm h02, Ne.symm h12]
      · rw [this]; exact c1
      · rw [this]; exact c2

/-! ## Time and one spatial direction, in three dimensions -/

theorem foldl_max_spec (l : List ℝ) (x : ℝ) : l.foldl max x ∈ x :: l ∧ ∀ y ∈ x :: l, y ≤ l.foldl max x := by
  induction l generalizing x with
  | nil => simp
  | cons a t ih =>
    obtain ⟨h1, h2⟩ := ih (max x a)
    simp only [List.foldl_cons]
    constructor
    · rcases List.mem_cons.1 h1 with h | h
      · rw [h]; rcases max_choice x a with h' | h' <;> rw [h'] <;> simp
      · exact List.mem_cons_of_mem _ (List.mem_cons_of_mem _ h)
    · intro y hy
      have hb := h2 (max x a) (by simp)
      rcases List.mem_cons.1 hy with rfl | hy
      · exact (le_max_left _ _).trans hb
      · rcases List.mem_cons.1 hy with rfl | hy
        · exact (le_max_right _ _).trans hb
        · exact h2 y (List.mem_cons_of_mem _ hy)

theorem foldl_min_spec (l : List ℝ) (x : ℝ) : l.foldl min x ∈ x :: l ∧ ∀ y ∈ x :: l, l.foldl min x ≤ y := by
  induction l generalizing x with
  | nil => simp
  | cons a t ih =>
    obtain ⟨h1, h2⟩ := ih (min x a)
    simp only [List.foldl_cons]
    constructor
    · rcases List.mem_cons.1 h1 with h | h
      · rw [h]; rcases min_choice x a with h' | h' <;> rw [h'] <;> simp
      · exact List.mem_cons_of_mem _ (List.mem_cons_of_mem _ h)
    · intro y hy
      have hb := h2 (min x a) (by simp)
      rcases List.mem_cons.1 hy with rfl | hy
      · exact hb.trans (min_le_left _ _)
      · rcases List.mem_cons.1 hy with rfl | hy
        · exact hb.trans (min_le_right _ _)
        · exact h2 y (List.mem_cons_of_mem _ hy)

theorem npMaxR_spec {l : List ℝ} (h : l ≠ []) : npMaxR l ∈ l ∧ ∀ y ∈ l, y ≤ npMaxR l := by
  cases l with
  | nil => exact absurd rfl h
  | cons x t => exact foldl_max_spec t x

theorem npMinR_spec {l : List ℝ} (h : l ≠ []) : npMinR l ∈ l ∧ ∀ y ∈ l, npMinR l ≤ y := by
  cases l with
  | nil => exact absurd rfl h
  | cons x t => exact foldl_min_spec t x

/-- **C84, plots of time and one spatial direction in three dimensions.** With the spatial directions `x` and `y`: the polygon has `2 m - 1` rows, row `k` and row `k` from the end are
the greatest and the least `x`-coordinate among the corners of a 128-sided polygon inscribed in the light cone of the event at the time `T k` (around the event, if `k > 0`). -/
theorem C84_deSitter_3_time (sgn : ℝ) (junk : ℕ → Option (ℝ × ℝ)) (x y d0 d1 : ℕ) (hxy : (x = 1 ∧ y = 2) ∨ (x = 2 ∧ y = 1)) (hd : (d0 = 0 ∧ d1 = x) ∨ (d0 = x ∧ d1 = 0)) {alpha : ℝ}
    (ha : 0 < alpha) (o : Point) (ho : InHorizon 3 alpha o) (n : ℤ) (ts : ℝ) :
    ∃ (rows : List (Option (ℝ × ℝ))) (left right T : ℕ → ℝ) (slice : ℕ → List (ℝ × ℝ)), coneGeom junk (.deSitter 3 alpha) [d0, d1] sgn n o ts = .ok (some (.polygon rows)) ∧
      rows.length = 2 * coneSampling n - 1 ∧ (∀ k, T k = o 0 + k * ((ts - o 0) / (coneSampling n - 1))) ∧
      (∀ k < coneSampling n, rows[k]? = some (some (if d0 = 0 then (T k, right k) else (right k, T k)))) ∧
      (∀ k < coneSampling n, 1 ≤ k → rows[2 * coneSampling n - 1 - k]? = some (some (if d0 = 0 then (T k, left k) else (left k, T k)))) ∧
      (∀ k, (∀ v ∈ slice k, v ∈ dSLightCurve 3 alpha o (T k) x y ∧ left k ≤ v.1 ∧ v.1 ≤ right k) ∧ (∃ v ∈ slice k, v.1 = left k) ∧ (∃ v ∈ slice k, v.1 = right k) ∧
        (T k ≠ o 0 → ∃ c A, 0 < A ∧ IsRing (dSLightCurve 3 alpha o (T k) x y) 128 c A ((slice k).map some))) := by
  have hm : 1 ≤ coneSampling n := by unfold coneSampling; split_ifs <;> omega
  have hx1 : 1 ≤ x ∧ x < 3 ∧ 1 ≤ y ∧ y < 3 ∧ x ≠ y := by omega
  have hta : coneTimeAxis [d0, d1] = (if d0 = 0 then 0 else 1) ∧ (if coneTimeAxis [d0, d1] = 0 then d1 else d0) = x := by
    rcases hd with ⟨rfl, rfl⟩ | ⟨rfl, rfl⟩
    · simp [timeAxis_first]
    · have : d0 ≠ 0 := by omega
      simp [timeAxis_second, this]
  obtain ⟨hta, hxd⟩ := hta
  have hta0 : ¬ coneTimeAxis [d0, d1] < 0 := by rw [hta]; split <;> norm_num
  choose slice hs using fun k => dSXY_slice junk hx1.1 hx1.2.1 hx1.2.2.1 hx1.2.2.2.1 hx1.2.2.2.2 ha ho (fun j a b c d => absurd d (by omega)) (linspaceR (o 0) ts (coneSampling n) k)
  have hcol : ∀ k, dSColumns junk 3 alpha (linspaceR (o 0) ts (coneSampling n) k) o x = some ((slice k).map Prod.fst) := by
    intro k
    have hf : (List.range' 1 (3 - 1)).filter (fun a => decide (a ≠ x)) = [y] := by
      rcases hxy with ⟨rfl, rfl⟩ | ⟨rfl, rfl⟩ <;> decide
    unfold dSColumns
    rw [hf]
    simp [(hs k).1]
  have hne : ∀ k, (slice k).map Prod.fst ≠ [] := by
    intro k h
    have := congrArg List.length h
    rw [List.length_map, (hs k).2.1] at this
    simp at this
  set left := fun k => npMinR ((slice k).map Prod.fst) with hleft
  set right := fun k => npMaxR ((slice k).map Prod.fst) with hright
  set T := linspaceR (o 0) ts (coneSampling n) with hT
  refine ⟨if coneTimeAxis [d0, d1] = 0 then ((xtRows (coneSampling n) left right T).map some).map (Option.map Prod.swap) else (xtRows (coneSampling n) left right T).map some,
    left, right, T, slice, ?_, ?_, fun k => rfl, ?_, ?_, ?_⟩
  · simp only [coneGeom, dSCone, baseCone, hta0, if_false, dSXT, hxd, show ¬ ((3 : ℕ) = 2) by norm_num, ← hT, hcol, Option.getD_some, Option.isNone_some]
    rw [if_neg (by simp)]
    rfl
  · split <;> simp [xtRows_length] <;> omega
  · intro k hk
    rw [hta]
    split_ifs <;> simp_all [xtRows_right, List.getElem?_map]
  · intro k hk h1
    rw [hta]
    split_ifs <;> simp_all [xtRows_left, List.getElem?_map]
  · intro k
    obtain ⟨a1, a2⟩ := npMinR_spec (hne k)
    obtain ⟨b1, b2⟩ := npMaxR_spec (hne k)
    refine ⟨fun v hv => ⟨(hs k).2.2.1 v hv, a2 _ (List.mem_map_of_mem hv), b2 _ (List.mem_map_of_mem hv)⟩, ?_, ?_, (hs k).2.2.2.2⟩
    · obtain ⟨v, hv, h⟩ := List.mem_map.1 a1; exact ⟨v, hv, h⟩
    · obtain ⟨v, hv, h⟩ := List.mem_map.1 b1; exact ⟨v, hv, h⟩

theorem columns_fold (f : ℕ → Option (List (ℝ × ℝ))) (g : ℕ → List (ℝ × ℝ)) : ∀ (L : List ℕ) (l : List ℝ), (∀ y ∈ L, f y = some (g y)) →
    L.foldl (fun acc y => match acc, f y with
      | some l, some rows => some (l ++ rows.map Prod.fst)
      | _, _ => none) (some l) = some (l ++ L.flatMap (fun y => (g y).map Prod.fst))
  | [], l, _ => by simp
  | y :: L, l, h => by
    rw [List.foldl_cons, h y (by simp)]
    rw [columns_fold f g L _ fun z hz => h z (by simp [hz])]
    simp

/-- **C84, plots of time and one spatial direction in three or more dimensions.** For an event that is in the plane of `x` and any other spatial direction (in three dimensions every event, in
more dimensions the events on the axis `x`): the polygon has `2 m - 1` rows, row `k` and row `k` from the end are the greatest and the least `x`-coordinate among the corners of the
128-sided polygons inscribed in the light cone of the event at the time `T k`, in the planes of `x` and each of the other spatial directions. -/
theorem C84_deSitter_time (sgn : ℝ) (junk : ℕ → Option (ℝ × ℝ)) (dim x d0 d1 : ℕ) (hdim : 3 ≤ dim) (hx : 1 ≤ x) (hx' : x < dim) (hd : (d0 = 0 ∧ d1 = x) ∨ (d0 = x ∧ d1 = 0)) {alpha : ℝ}
    (ha : 0 < alpha) (o : Point) (ho : InHorizon dim alpha o) (hz : ∀ y, 1 ≤ y → y < dim → y ≠ x → ∀ j, 1 ≤ j → j < dim → j ≠ x → j ≠ y → o j = 0) (n : ℤ) (ts : ℝ) :
    ∃ (rows : List (Option (ℝ × ℝ))) (left right T : ℕ → ℝ) (slice : ℕ → ℕ → List (ℝ × ℝ)), coneGeom junk (.deSitter dim alpha) [d0, d1] sgn n o ts = .ok (some (.polygon rows)) ∧
      rows.length = 2 * coneSampling n - 1 ∧ (∀ k, T k = o 0 + k * ((ts - o 0) / (coneSampling n - 1))) ∧
      (∀ k < coneSampling n, rows[k]? = some (some (if d0 = 0 then (T k, right k) else (right k, T k)))) ∧
      (∀ k < coneSampling n, 1 ≤ k → rows[2 * coneSampling n - 1 - k]? = some (some (if d0 = 0 then (T k, left k) else (left k, T k)))) ∧
      (∀ k y, 1 ≤ y → y < dim → y ≠ x → (∀ v ∈ slice k y, v ∈ dSLightCurve dim alpha o (T k) x y ∧ left k ≤ v.1 ∧ v.1 ≤ right k) ∧
        (T k ≠ o 0 → ∃ c A, 0 < A ∧ IsRing (dSLightCurve dim alpha o (T k) x y) 128 c A ((slice k y).map some))) ∧
      (∀ k, (∃ y, 1 ≤ y ∧ y < dim ∧ y ≠ x ∧ ∃ v ∈ slice k y, v.1 = left k) ∧ (∃ y, 1 ≤ y ∧ y < dim ∧ y ≠ x ∧ ∃ v ∈ slice k y, v.1 = right k)) := by
  have hm : 1 ≤ coneSampling n := by unfold coneSampling; split_ifs <;> omega
  have hta : coneTimeAxis [d0, d1] = (if d0 = 0 then 0 else 1) ∧ (if coneTimeAxis [d0, d1] = 0 then d1 else d0) = x := by
    rcases hd with ⟨rfl, rfl⟩ | ⟨rfl, rfl⟩
    · simp [timeAxis_first]
    · have : d0 ≠ 0 := by omega
      simp [timeAxis_second, this]
  obtain ⟨hta, hxd⟩ := hta
  have hta0 : ¬ coneTimeAxis [d0, d1] < 0 := by rw [hta]; split <;> norm_num
  have hex : ∀ k y, ∃ rows, (1 ≤ y → y < dim → y ≠ x → dSXY junk dim alpha (linspaceR (o 0) ts (coneSampling n) k) o x y = some rows ∧ rows.length = 129 ∧
      (∀ v ∈ rows, v ∈ dSLightCurve dim alpha o (linspaceR (o 0) ts (coneSampling n) k) x y) ∧
      (linspaceR (o 0) ts (coneSampling n) k ≠ o 0 →
        ∃ c A, 0 < A ∧ IsRing (dSLightCurve dim alpha o (linspaceR (o 0) ts (coneSampling n) k) x y) 128 c A (rows.map some))) := by
    intro k y
    by_cases hy : 1 ≤ y ∧ y < dim ∧ y ≠ x
    · obtain ⟨rows, r1, r2, r3, -, r5⟩ := dSXY_slice junk hx hx' hy.1 hy.2.1 (Ne.symm hy.2.2) ha ho (hz y hy.1 hy.2.1 hy.2.2) (linspaceR (o 0) ts (coneSampling n) k)
      exact ⟨rows, fun _ _ _ => ⟨r1, r2, r3, r5⟩⟩
    · exact ⟨[], fun a b c => absurd ⟨a, b, c⟩ hy⟩
  choose slice hs using hex
  set ys := (List.range' 1 (dim - 1)).filter (fun a => decide (a ≠ x)) with hys
  have mys : ∀ y, y ∈ ys ↔ 1 ≤ y ∧ y < dim ∧ y ≠ x := by
    intro y
    rw [hys, List.mem_filter, List.mem_range'_1]
    simp only [decide_eq_true_eq]
    constructor
    · rintro ⟨⟨a, b⟩, c⟩; exact ⟨a, by omega, c⟩
    · rintro ⟨a, b, c⟩; exact ⟨⟨a, by omega⟩, c⟩
  set col := fun k => ys.flatMap (fun y => (slice k y).map Prod.fst) with hcoldef
  have hcol : ∀ k, dSColumns junk dim alpha (linspaceR (o 0) ts (coneSampling n) k) o x = some (col k) := by
    intro k
    unfold dSColumns
    rw [← hys]
    have := columns_fold (dSXY junk dim alpha (linspaceR (o 0) ts (coneSampling n) k) o x) (slice k) ys [] (fun y hy => by
      obtain ⟨a, b, c⟩ := (mys y).1 hy
      exact (hs k y a b c).1)
    rw [List.nil_append] at this
    exact this
  have mcol : ∀ k u, u ∈ col k ↔ ∃ y, 1 ≤ y ∧ y < dim ∧ y ≠ x ∧ ∃ v ∈ slice k y, v.1 = u := by
    intro k u
    rw [hcoldef]
    simp only [List.mem_flatMap, List.mem_map]
    constructor
    · rintro ⟨y, hy, v, hv, rfl⟩
      obtain ⟨a, b, c⟩ := (mys y).1 hy
      exact ⟨y, a, b, c, v, hv, rfl⟩
    · rintro ⟨y, a, b, c, v, hv, rfl⟩
      exact ⟨y, (mys y).2 ⟨a, b, c⟩, v, hv, rfl⟩
  have hne : ∀ k, col k ≠ [] := by
    intro k h
    obtain ⟨y, a, b, c⟩ : ∃ y, 1 ≤ y ∧ y < dim ∧ y ≠ x := by
      by_cases h1 : x = 1
      · exact ⟨2, by omega, by omega, by omega⟩
      · exact ⟨1, le_rfl, by omega, by omega⟩
    obtain ⟨-, hlen, -⟩ := hs k y a b c
    cases hsl : slice k y with
    | nil => rw [hsl] at hlen; simp at hlen
    | cons v vs =>
      have : v.1 ∈ col k := (mcol k v.1).2 ⟨y, a, b, c, v, by rw [hsl]; simp, rfl⟩
      rw [h] at this; simp at this
  set left := fun k => npMinR (col k) with hleft
  set right := fun k => npMaxR (col k) with hright
  set T := linspaceR (o 0) ts (coneSampling n) with hT
  refine ⟨if coneTimeAxis [d0, d1] = 0 then ((xtRows (coneSampling n) left right T).map some).map (Option.map Prod.swap) else (xtRows (coneSampling n) left right T).map some,
    left, right, T, slice, ?_, ?_, fun k => rfl, ?_, ?_, ?_, ?_⟩
  · simp only [coneGeom, dSCone, baseCone, hta0, if_false, dSXT, hxd, show ¬ (dim = 2) by omega, ← hT, hcol, Option.getD_some, Option.isNone_some]
    rw [if_neg (by simp)]
    rfl
  · split <;> simp [xtRows_length] <;> omega
  · intro k hk
    rw [hta]
    split_ifs <;> simp_all [xtRows_right, List.getElem?_map]
  · intro k hk h1
    rw [hta]
    split_ifs <;> simp_all [xtRows_left, List.getElem?_map]
  · intro k y a b c
    obtain ⟨-, -, q3, q4⟩ := hs k y a b c
    refine ⟨fun v hv => ⟨q3 v hv, (npMinR_spec (hne k)).2 _ ((mcol k v.1).2 ⟨y, a, b, c, v, hv, rfl⟩), (npMaxR_spec (hne k)).2 _ ((mcol k v.1).2 ⟨y, a, b, c, v, hv, rfl⟩)⟩, q4⟩
  · intro k
    exact ⟨(mcol k _).1 (npMinR_spec (hne k)).1, (mcol k _).1 (npMaxR_spec (hne k)).1⟩

/-- C84: in four dimensions the event at time 0 and position (1/2, 0, 0) meets the hypotheses for the axis 1. -/
example : ∃ o : Point, o 0 = 0 ∧ o 1 = 1 / 2 ∧ InHorizon 4 1 o ∧ ∀ y, 1 ≤ y → y < 4 → y ≠ 1 → ∀ j, 1 ≤ j → j < 4 → j ≠ 1 → j ≠ y → o j = 0 := by
  refine ⟨fun i => if i = 1 then 1 / 2 else 0, by simp, by simp, ?_, fun y _ _ _ j _ _ h _ => by simp [h]⟩
  unfold InHorizon
  simp [Finset.sum_Ico_succ_top]
  norm_num

/-! ## Events off the plotted plane -/

theorem dSXY_offplane (junk : ℕ → Option (ℝ × ℝ)) : ∃ o : Point, InHorizon 4 1 o ∧ o 0 = 0 ∧ o 1 = 0 ∧ o 2 = 0 ∧ ∃ rows, dSXY junk 4 1 0 o 1 2 = some rows ∧ rows ≠ [] ∧
    ∀ v ∈ rows, v = (1 / 2, 0) ∧ ¬ LightLike 5 (dSEmbed 4 1 o) (dSEmbed 4 1 (pointAt o 0 [1, 2] [v.1, v.2])) := by
  set o : Point := fun i => if i = 3 then 1 / 2 else 0 with ho
  have hsum : ∑ i ∈ Finset.Ico 1 4, (o i) ^ 2 = 1 / 4 := by simp [ho, Finset.sum_Ico_succ_top]; norm_num
  refine ⟨o, by unfold InHorizon; rw [hsum]; norm_num, by simp [ho], by simp [ho], by simp [ho], ?_⟩
  have hsqrt : Real.sqrt (1 / 4 / 1 ^ 2) = 1 / 2 := by
    rw [show (1 / 4 / 1 ^ 2 : ℝ) = (1 / 2) ^ 2 by norm_num]; exact Real.sqrt_sq (by norm_num)
  have hat : Real.tanh (Real.artanh (1 / 2)) = 1 / 2 := Real.tanh_artanh ⟨by norm_num, by norm_num⟩
  have hrows : dSXY junk 4 1 0 o 1 2 = some ((List.range 129).map (fun _ => ((1 / 2 : ℝ), (0 : ℝ)))) := by
    unfold dSXY
    dsimp only
    rw [hsum, if_neg (by simp [test]; norm_num), hsqrt]
    have h0 : o 0 = 0 := by simp [ho]
    have h1 : o 1 = 0 := by simp [ho]
    have h2 : o 2 = 0 := by simp [ho]
    have harg : Complex.arg ⟨0, 0⟩ = 0 := by
      have : (⟨0, 0⟩ : ℂ) = 0 := rfl
      rw [this, Complex.arg_zero]
    rw [h0, h1, h2, harg]
    simp only [sub_self, abs_zero, zero_div, sub_zero, add_zero, hat]
    norm_num [test, ellipseEdge, samplingRows]
  refine ⟨_, hrows, by simp, ?_⟩
  intro v hv
  have hv' : v = (1 / 2, 0) := by
    simp only [List.mem_map] at hv
    obtain ⟨k, -, rfl⟩ := hv; rfl
  refine ⟨hv', ?_⟩
  · rw [hv']
    rintro h
    unfold LightLike at h
    rw [pointAt2 o 0 1 2 (by norm_num)] at h
    simp [dSEmbed, ho, Finset.sum_Ico_succ_top] at h
    nlinarith [sq_nonneg (√(1 - ((2 : ℝ)⁻¹ ^ 2 + (2 : ℝ)⁻¹ ^ 2)) - √(1 - (2 : ℝ)⁻¹ ^ 2))]

/-- **C84, refuted for events off the plotted plane.** In four dimensions, for the event at the time 0 and the position (0, 0, 1/2), the cone drawn over the first two spatial directions
begins at the position (1/2, 0) instead of (0, 0); none of the points drawn at the time of the event is on its light cone. -/
theorem C84_offplane_refuted (sgn : ℝ) (junk : ℕ → Option (ℝ × ℝ)) (n : ℤ) : ∃ o : Point, InHorizon 4 1 o ∧ o 0 = 0 ∧ o 1 = 0 ∧ o 2 = 0 ∧
    ∃ P, coneGeom junk (.deSitter 4 1) [1, 2, 0] sgn n o 1 = .ok (some (.surfaces [P])) ∧ 0 < P.rows ∧ 0 < P.cols ∧
      ∀ j < P.cols, P.pos 0 j = (1 / 2, 0, 0) ∧ ¬ LightLike 5 (dSEmbed 4 1 o) (dSEmbed 4 1 (pointAt o 1 [1, 2, 0] [(P.pos 0 j).1, (P.pos 0 j).2.1, (P.pos 0 j).2.2])) := by
  obtain ⟨o, ho, h0, h1, h2, rows, hrows, hne, hbad⟩ := dSXY_offplane junk
  have hm : 1 ≤ coneSampling n := by unfold coneSampling; split_ifs <;> omega
  have hsome : ∀ t, ∃ r, dSXY junk 4 1 t o 1 2 = some r := by
    intro t
    unfold dSXY
    dsimp only
    rw [if_neg (by unfold InHorizon at ho; simp [test]; simpa using ho)]
    exact ⟨_, rfl⟩
  choose R hR using hsome
  have hR0 : R 0 = rows := by have := hR 0; rw [hrows] at this; exact (Option.some.inj this).symm
  have hlin : linspaceR (o 0) 1 (coneSampling n) 0 = 0 := by simp [linspaceR, h0]
  have hT : coneTimeAxis [1, 2, 0] = 2 := by decide
  have hcone : dSCone junk 4 1 [1, 2, 0] n o 1 = .ok (some (.surfaces [⟨coneSampling n, (R 0).length, fun i j =>
      let p := (((List.range (coneSampling n)).map (fun k => R (linspaceR (o 0) 1 (coneSampling n) k))).getD i []).getD j (0, 0)
      coneRotate 2 (p.1, p.2, linspaceR (o 0) 1 (coneSampling n) i)⟩])) := by
    simp only [dSCone, baseCone, hT, mapM_ok, show ¬ ((2 : ℤ) < 0) by norm_num, show ¬ ((2 : ℤ) = 0) by norm_num, show ¬ ((2 : ℤ) = 1) by norm_num, if_false,
      mapM_some (List.range (coneSampling n)) _ (fun k => R (linspaceR (o 0) 1 (coneSampling n) k)) (fun k => hR _)]
    have e : ((List.range (coneSampling n)).map (fun k => R (linspaceR (o 0) 1 (coneSampling n) k))).getD 0 [] = R 0 := by
      rw [List.getD_eq_getElem?_getD, List.getElem?_map, List.getElem?_range (by omega)]
      simp [hlin]
    rw [e]
  refine ⟨o, ho, h0, h1, h2, _, hcone, hm, ?_, ?_⟩
  · rw [hR0]; exact List.length_pos_of_ne_nil hne
  · intro j hj
    dsimp only at hj ⊢
    have e : ((List.range (coneSampling n)).map (fun k => R (linspaceR (o 0) 1 (coneSampling n) k))).getD 0 [] = R 0 := by
      rw [List.getD_eq_getElem?_getD, List.getElem?_map, List.getElem?_range (by omega)]
      simp [hlin]
    rw [e, hlin, List.getD_eq_getElem?_getD, List.getElem?_eq_getElem hj]
    obtain ⟨hv, hl⟩ := hbad (R 0)[j] (by rw [← hR0]; exact List.getElem_mem hj)
    refine ⟨by simp [hv, coneRotate], ?_⟩
    have : pointAt o 1 [1, 2, 0] [(R 0)[j].1, (R 0)[j].2, 0] = pointAt o 0 [1, 2] [(R 0)[j].1, (R 0)[j].2] := by
      rw [pointAt3 o 1 1 2 0 (by norm_num) (by norm_num) (by norm_num), pointAt2 o 0 1 2 (by norm_num)]
      funext k
      by_cases a : k = 0 <;> simp [a]
    rw [← this] at hl
    simpa [coneRotate] using hl

/-! ## The hypotheses can be met -/

example : InHorizon 3 1 (fun i => if i = 1 then 1 / 2 else 0) := by
  unfold InHorizon; simp [Finset.sum_Ico_succ_top]; norm_num

end Causets
