import Verif.Lemmas.Volume
import Mathlib.MeasureTheory.Constructions.HaarToSphere
import Mathlib.MeasureTheory.Function.JacobianOneDim
import Mathlib.Probability.Distributions.Gaussian.Real
import Mathlib.Probability.Distributions.Uniform

/-! # Polar coordinates: a normalised Gaussian vector times the root of a uniform number is uniform in a spherical shell -/

namespace Causets
open MeasureTheory ENNReal Set Metric ProbabilityTheory

/-- polar coordinates in a normed space -/
theorem lintegral_polar {E : Type*} [NormedAddCommGroup E] [NormedSpace ℝ E] [MeasurableSpace E] [BorelSpace E] [FiniteDimensional ℝ E] [Nontrivial E]
    (μ : Measure E) [μ.IsAddHaarMeasure] (f : E → ℝ≥0∞) (hf : Measurable f) :
    ∫⁻ x, f x ∂μ = ∫⁻ s, ∫⁻ r in Ioi (0 : ℝ), ENNReal.ofReal (r ^ (Module.finrank ℝ E - 1)) * f (r • (s : E)) ∂volume ∂μ.toSphere := by
  have hmeas : Measurable fun p : sphere (0 : E) 1 × Ioi (0 : ℝ) => f ((p.2 : ℝ) • (p.1 : E)) := by
    apply hf.comp
    fun_prop
  have e1 : ∫⁻ x, f x ∂μ = ∫⁻ x : ({(0)}ᶜ : Set E), f x.1 ∂(μ.comap (↑)) := by
    rw [lintegral_subtype_comap (measurableSet_singleton _).compl f, restrict_compl_singleton]
  rw [e1]
  have e2 : ∀ x : ({(0)}ᶜ : Set E), f x.1 = (fun p : sphere (0 : E) 1 × Ioi (0 : ℝ) => f ((p.2 : ℝ) • (p.1 : E))) (homeomorphUnitSphereProd E x) := by
    intro x
    have hx : ‖(x : E)‖ ≠ 0 := norm_ne_zero_iff.2 x.2
    simp [smul_smul, hx]
  simp only [e2]
  rw [μ.measurePreserving_homeomorphUnitSphereProd.lintegral_comp hmeas, lintegral_prod _ hmeas.aemeasurable]
  refine lintegral_congr fun s => ?_
  have hm2 : Measurable fun r : Ioi (0 : ℝ) => f ((r : ℝ) • (s : E)) := hmeas.comp (by fun_prop : Measurable fun r : Ioi (0 : ℝ) => (s, r))
  rw [Measure.volumeIoiPow, lintegral_withDensity_eq_lintegral_mul _ (by fun_prop) hm2]
  simp only [Pi.mul_apply]
  rw [lintegral_subtype_comap measurableSet_Ioi fun r : ℝ => ENNReal.ofReal (r ^ (Module.finrank ℝ E - 1)) * f (r • (s : E))]

/-- a product of densities is the density of the product -/
theorem pi_withDensity_fin (g : ℝ → ℝ≥0∞) (hg : Measurable g) [SigmaFinite ((volume : Measure ℝ).withDensity g)] (n : ℕ) :
    Measure.pi (fun _ : Fin n => (volume : Measure ℝ).withDensity g) = (volume : Measure (Fin n → ℝ)).withDensity fun x => ∏ i, g (x i) := by
  induction n with
  | zero =>
    have : (fun x : Fin 0 → ℝ => ∏ i, g (x i)) = 1 := by funext x; simp
    rw [this, withDensity_one, volume_pi, Measure.pi_of_empty, Measure.pi_of_empty]
  | succ n ih =>
    have h1 := (measurePreserving_piFinSuccAbove (fun _ : Fin (n + 1) => (volume : Measure ℝ).withDensity g) 0).symm.map_eq
    have h2 := (volume_preserving_piFinSuccAbove (fun _ : Fin (n + 1) => ℝ) 0).symm.map_eq
    have hG : Measurable fun x : Fin n → ℝ => ∏ i, g (x i) := by fun_prop
    have hG' : Measurable fun x : Fin (n + 1) → ℝ => ∏ i, g (x i) := by fun_prop
    rw [← h1, ih, prod_withDensity hg hG]
    ext s hs
    rw [MeasurableEquiv.map_apply, withDensity_apply _ (MeasurableEquiv.measurable _ hs), withDensity_apply _ hs, ← h2,
      setLIntegral_map hs hG' (MeasurableEquiv.measurable _)]
    refine lintegral_congr fun p => ?_
    rw [Fin.prod_univ_succ]
    simp [MeasurableEquiv.piFinSuccAbove]

/-- substitution of the radius -/
theorem lintegral_radius (n : ℕ) (hn : n ≠ 0) {R h : ℝ} (hR : 0 < R) (h0 : 0 ≤ h) (h1 : h < 1) (φ : ℝ → ℝ≥0∞) :
    ∫⁻ u in Ico (0 : ℝ) 1, φ ((h ^ n + (1 - h ^ n) * u) ^ (1 / (n : ℝ)) * R) =
      ENNReal.ofReal (n / (R ^ n * (1 - h ^ n))) * ∫⁻ r in Icc (h * R) R, ENNReal.ofReal (r ^ (n - 1)) * φ r := by
  have hp : h ^ n < 1 := pow_lt_one₀ h0 h1 hn
  have hD : 0 < 1 - h ^ n := by linarith
  have hRn : 0 < R ^ n := by positivity
  have himg : (fun r : ℝ => ((r / R) ^ n - h ^ n) / (1 - h ^ n)) '' Ico (h * R) R = Ico 0 1 := by
    ext u
    simp only [mem_image, mem_Ico]
    constructor
    · rintro ⟨r, ⟨ha, hb⟩, rfl⟩
      have hr1 : h ≤ r / R := by rw [le_div_iff₀ hR]; exact ha
      have hr2 : r / R < 1 := by rw [div_lt_one hR]; exact hb
      have := pow_le_pow_left₀ h0 hr1 n
      have := pow_lt_one₀ (h0.trans hr1) hr2 hn
      constructor
      · apply div_nonneg <;> linarith
      · rw [div_lt_one hD]; linarith
    · rintro ⟨hu0, hu1⟩
      have hv0 : h ^ n ≤ h ^ n + (1 - h ^ n) * u := by nlinarith
      have hv1 : h ^ n + (1 - h ^ n) * u < 1 := by nlinarith
      have hv : 0 ≤ h ^ n + (1 - h ^ n) * u := (pow_nonneg h0 n).trans hv0
      refine ⟨(h ^ n + (1 - h ^ n) * u) ^ (1 / (n : ℝ)) * R, ⟨?_, ?_⟩, ?_⟩
      · refine mul_le_mul_of_nonneg_right ?_ hR.le
        calc h = (h ^ n) ^ (1 / (n : ℝ)) := by rw [one_div, Real.pow_rpow_inv_natCast h0 hn]
          _ ≤ _ := Real.rpow_le_rpow (pow_nonneg h0 n) hv0 (by positivity)
      · have : (h ^ n + (1 - h ^ n) * u) ^ (1 / (n : ℝ)) < 1 := Real.rpow_lt_one hv hv1 (by positivity)
        nlinarith
      · rw [mul_div_cancel_right₀ _ hR.ne', one_div, Real.rpow_inv_natCast_pow hv hn]
        field_simp
        ring
  rw [← himg, lintegral_image_eq_lintegral_deriv_mul_of_monotoneOn measurableSet_Ico (f' := fun r => n / (R ^ n * (1 - h ^ n)) * r ^ (n - 1))]
  · rw [Measure.restrict_congr_set Ico_ae_eq_Icc.symm, ← lintegral_const_mul' _ _ ENNReal.ofReal_ne_top]
    refine setLIntegral_congr_fun measurableSet_Ico fun r hr => ?_
    have hr0 : 0 ≤ r := le_trans (by positivity) hr.1
    rw [← mul_assoc, ← ENNReal.ofReal_mul (by positivity)]
    congr 2
    have : h ^ n + (1 - h ^ n) * (((r / R) ^ n - h ^ n) / (1 - h ^ n)) = (r / R) ^ n := by field_simp; ring
    rw [this, one_div, Real.pow_rpow_inv_natCast (by positivity) hn]
    field_simp
  · intro r _
    have h3 : HasDerivAt (fun r : ℝ => ((r / R) ^ n - h ^ n) / (1 - h ^ n)) ((n * (r / R) ^ (n - 1) * (1 / R)) / (1 - h ^ n)) r :=
      ((((hasDerivAt_id r).div_const R).pow n).sub_const _).div_const _
    refine h3.hasDerivWithinAt.congr_deriv ?_
    obtain ⟨m, rfl⟩ : ∃ m, n = m + 1 := ⟨n - 1, by omega⟩
    simp only [Nat.add_sub_cancel, div_pow]
    field_simp
    ring
  · intro a ha b hb hab
    have ha0 : 0 ≤ a := le_trans (by positivity) ha.1
    have : (a / R) ^ n ≤ (b / R) ^ n := pow_le_pow_left₀ (by positivity) (div_le_div_of_nonneg_right hab hR.le) n
    exact div_le_div_of_nonneg_right (by linarith) hD.le

/-- the standard normal distribution of `n` independent coordinates -/
noncomputable abbrev gaussianVec (n : ℕ) : Measure (Fin n → ℝ) := Measure.pi fun _ : Fin n => gaussianReal 0 1

/-- the density depends on the norm only -/
theorem gaussianVec_density (n : ℕ) : gaussianVec n =
    (volume : Measure (Fin n → ℝ)).withDensity fun y => ENNReal.ofReal ((Real.sqrt (2 * Real.pi))⁻¹ ^ n * Real.exp (-(enorm2 y) ^ 2 / 2)) := by
  haveI : SigmaFinite ((volume : Measure ℝ).withDensity (gaussianPDF 0 1)) := by
    rw [← gaussianReal_of_var_ne_zero 0 one_ne_zero]; infer_instance
  unfold gaussianVec
  rw [gaussianReal_of_var_ne_zero 0 one_ne_zero, pi_withDensity_fin _ (measurable_gaussianPDF 0 1)]
  congr 1
  funext y
  simp only [gaussianPDF]
  rw [← ENNReal.ofReal_prod_of_nonneg (fun i _ => gaussianPDFReal_nonneg 0 1 _)]
  congr 1
  simp only [gaussianPDFReal, NNReal.coe_one, mul_one, sub_zero]
  rw [Finset.prod_mul_distrib, Finset.prod_const, Finset.card_univ, Fintype.card_fin, ← Real.exp_sum]
  congr 2
  rw [enorm2, Real.sq_sqrt (Finset.sum_nonneg fun _ _ => sq_nonneg _), ← Finset.sum_div, Finset.sum_neg_distrib]

/-- the direction of a normal vector is distributed like the surface measure of the sphere -/
theorem gaussian_direction (n : ℕ) (hn : n ≠ 0) : ∃ K : ℝ≥0∞, ∀ F : (Fin n → ℝ) → ℝ≥0∞, Measurable F →
    ∫⁻ y, F (fun i => 1 / enorm2 y * y i) ∂gaussianVec n =
      K * ∫⁻ s : sphere (0 : EuclideanSpace ℝ (Fin n)) 1, F (WithLp.ofLp s.1) ∂(volume : Measure (EuclideanSpace ℝ (Fin n))).toSphere := by
  haveI : Nonempty (Fin n) := ⟨⟨0, Nat.pos_of_ne_zero hn⟩⟩
  set G : ℝ → ℝ≥0∞ := fun r => ENNReal.ofReal ((Real.sqrt (2 * Real.pi))⁻¹ ^ n * Real.exp (-r ^ 2 / 2)) with hG
  have hGm : Measurable G := by rw [hG]; fun_prop
  refine ⟨∫⁻ r in Ioi (0 : ℝ), ENNReal.ofReal (r ^ (n - 1)) * G r, fun F hF => ?_⟩
  have hdir : Measurable fun y : Fin n → ℝ => (fun i => 1 / enorm2 y * y i : Fin n → ℝ) :=
    measurable_pi_lambda _ fun i => (measurable_const.div measurable_enorm2).mul (measurable_pi_apply i)
  have hm : Measurable fun y : Fin n → ℝ => G (enorm2 y) * F (fun i => 1 / enorm2 y * y i) := (hGm.comp measurable_enorm2).mul (hF.comp hdir)
  rw [gaussianVec_density]
  refine (lintegral_withDensity_eq_lintegral_mul volume (f := fun y => G (enorm2 y)) (hGm.comp measurable_enorm2)
    (g := fun y => F (fun i => 1 / enorm2 y * y i)) (hF.comp hdir)).trans ?_
  have e0 : ∫⁻ y : Fin n → ℝ, G (enorm2 y) * F (fun i => 1 / enorm2 y * y i) =
      ∫⁻ x : EuclideanSpace ℝ (Fin n), G ‖x‖ * F (fun i => 1 / ‖x‖ * x i) := by
    rw [← (PiLp.volume_preserving_ofLp (Fin n)).lintegral_comp hm]
    simp only [enorm2_eq_norm, WithLp.toLp_ofLp]
  refine e0.trans ?_
  have hm' : Measurable fun x : EuclideanSpace ℝ (Fin n) => G ‖x‖ * F (fun i => 1 / ‖x‖ * x i) := by
    refine (hGm.comp measurable_norm).mul (hF.comp (measurable_pi_lambda _ fun i => ?_))
    fun_prop
  rw [lintegral_polar volume _ hm', finrank_euclideanSpace, Fintype.card_fin]
  have hFs : Measurable fun s : sphere (0 : EuclideanSpace ℝ (Fin n)) 1 => F (WithLp.ofLp s.1) := hF.comp (by fun_prop)
  rw [← lintegral_const_mul _ hFs]
  refine lintegral_congr fun s => ?_
  rw [← lintegral_mul_const _ (by fun_prop)]
  refine setLIntegral_congr_fun measurableSet_Ioi fun r hr => ?_
  have hr0 : (0 : ℝ) < r := hr
  have hs : ‖(s : EuclideanSpace ℝ (Fin n))‖ = 1 := by simpa using s.2
  have hnorm : ‖r • (s : EuclideanSpace ℝ (Fin n))‖ = r := by rw [norm_smul, hs, mul_one, Real.norm_of_nonneg hr0.le]
  simp only [hnorm]
  rw [← mul_assoc]
  congr 2
  funext i
  simp [hr0.ne']

/-- a point of the shell in polar coordinates -/
theorem lintegral_shell_polar (n : ℕ) (hn : n ≠ 0) {a b : ℝ} (ha : 0 ≤ a) (f : (Fin n → ℝ) → ℝ≥0∞) (hf : Measurable f) :
    ∫⁻ x in {x : Fin n → ℝ | a ≤ enorm2 x ∧ enorm2 x ≤ b}, f x =
      ∫⁻ s : sphere (0 : EuclideanSpace ℝ (Fin n)) 1, ∫⁻ r in Icc a b, ENNReal.ofReal (r ^ (n - 1)) * f (fun i => r * s.1 i)
        ∂(volume : Measure ℝ) ∂(volume : Measure (EuclideanSpace ℝ (Fin n))).toSphere := by
  haveI : Nonempty (Fin n) := ⟨⟨0, Nat.pos_of_ne_zero hn⟩⟩
  have hS : MeasurableSet {x : Fin n → ℝ | a ≤ enorm2 x ∧ enorm2 x ≤ b} :=
    (measurableSet_le measurable_const measurable_enorm2).inter (measurableSet_le measurable_enorm2 measurable_const)
  rw [← lintegral_indicator hS, ← (PiLp.volume_preserving_ofLp (Fin n)).lintegral_comp (hf.indicator hS)]
  refine (lintegral_polar volume (fun x : EuclideanSpace ℝ (Fin n) => {x : Fin n → ℝ | a ≤ enorm2 x ∧ enorm2 x ≤ b}.indicator f x.ofLp)
    ((hf.indicator hS).comp (by fun_prop))).trans ?_
  rw [finrank_euclideanSpace, Fintype.card_fin]
  refine lintegral_congr fun s => ?_
  have hs : ‖(s : EuclideanSpace ℝ (Fin n))‖ = 1 := by simpa using s.2
  rw [Measure.restrict_congr_set Ioi_ae_eq_Ici]
  have hsub : Icc a b = Icc a b ∩ Ici 0 := (inter_eq_left.2 fun r hr => ha.trans hr.1).symm
  rw [hsub, ← setLIntegral_indicator measurableSet_Icc]
  refine setLIntegral_congr_fun measurableSet_Ici fun r hr => ?_
  have hr0 : (0 : ℝ) ≤ r := hr
  have hnorm : enorm2 (WithLp.ofLp (r • (s : EuclideanSpace ℝ (Fin n)))) = r := by
    rw [enorm2_eq_norm, WithLp.toLp_ofLp, norm_smul, hs, mul_one, Real.norm_of_nonneg hr0]
  have hiff : (r • (s : EuclideanSpace ℝ (Fin n))).ofLp ∈ {x : Fin n → ℝ | a ≤ enorm2 x ∧ enorm2 x ≤ b} ↔ r ∈ Icc a b := by
    rw [mem_setOf_eq, hnorm]; rfl
  by_cases hmem : r ∈ Icc a b
  · rw [indicator_of_mem hmem]
    simp only [Function.comp]
    rw [indicator_of_mem (hiff.2 hmem)]
    rfl
  · rw [indicator_of_notMem hmem]
    simp only [Function.comp]
    rw [indicator_of_notMem (fun e => hmem (hiff.1 e)), mul_zero]

/-- **Uniform distribution in a spherical shell**, up to the normalisation -/
theorem lintegral_shell_law (n : ℕ) (hn : n ≠ 0) {R h : ℝ} (hR : 0 < R) (h0 : 0 ≤ h) (h1 : h < 1) : ∃ C : ℝ≥0∞, ∀ f : (Fin n → ℝ) → ℝ≥0∞, Measurable f →
    ∫⁻ u in Ico (0 : ℝ) 1, ∫⁻ y, f (fun i => (h ^ n + (1 - h ^ n) * u) ^ (1 / (n : ℝ)) * R / enorm2 y * y i) ∂gaussianVec n =
      C * ∫⁻ x in {x : Fin n → ℝ | h * R ≤ enorm2 x ∧ enorm2 x ≤ R}, f x := by
  obtain ⟨K, hK⟩ := gaussian_direction n hn
  refine ⟨K * ENNReal.ofReal (n / (R ^ n * (1 - h ^ n))), fun f hf => ?_⟩
  have e1 : ∀ u : ℝ, ∫⁻ y, f (fun i => (h ^ n + (1 - h ^ n) * u) ^ (1 / (n : ℝ)) * R / enorm2 y * y i) ∂gaussianVec n =
      K * ∫⁻ s : sphere (0 : EuclideanSpace ℝ (Fin n)) 1, f (fun i => (h ^ n + (1 - h ^ n) * u) ^ (1 / (n : ℝ)) * R * s.1 i)
        ∂(volume : Measure (EuclideanSpace ℝ (Fin n))).toSphere := by
    intro u
    rw [← hK (fun z => f (fun i => (h ^ n + (1 - h ^ n) * u) ^ (1 / (n : ℝ)) * R * z i)) (hf.comp (by fun_prop))]
    refine lintegral_congr fun y => ?_
    congr 1
    funext i
    ring
  simp only [e1]
  have hm : Measurable fun p : ℝ × sphere (0 : EuclideanSpace ℝ (Fin n)) 1 =>
      f (fun i => (h ^ n + (1 - h ^ n) * p.1) ^ (1 / (n : ℝ)) * R * p.2.1 i) := hf.comp (by fun_prop)
  rw [lintegral_const_mul _ (by exact hm.lintegral_prod_right), lintegral_lintegral_swap hm.aemeasurable, lintegral_shell_polar n hn (by positivity) f hf, mul_assoc]
  congr 1
  have hm2 : Measurable fun p : sphere (0 : EuclideanSpace ℝ (Fin n)) 1 × ℝ => ENNReal.ofReal (p.2 ^ (n - 1)) * f (fun i => p.2 * p.1.1 i) :=
    Measurable.mul (by fun_prop) (hf.comp (by fun_prop))
  rw [← lintegral_const_mul _ (by exact hm2.lintegral_prod_right)]
  refine lintegral_congr fun s => ?_
  exact lintegral_radius n hn hR h0 h1 (fun r => f (fun i => r * s.1 i))

end Causets
