import Verif.Lemmas.Polar
import Mathlib.Probability.Independence.InfinitePi

/-! # Uniform laws: intervals, boxes, shells and cylinders; independence of the rows of an independent array -/

namespace Causets
open MeasureTheory ENNReal Set ProbabilityTheory

/-- a probability measure proportional to the volume in `s` is the uniform distribution on `s` -/
theorem eq_cond_of_proportional {α : Type*} [MeasurableSpace α] (μ ν : Measure α) [IsProbabilityMeasure ν] (s : Set α) (hs : MeasurableSet s) (hfin : μ s ≠ ∞) (C : ℝ≥0∞)
    (h : ∀ B, MeasurableSet B → ν B = C * μ (s ∩ B)) : ν = cond μ s := by
  have h1 : C * μ s = 1 := by
    have := h univ MeasurableSet.univ
    rwa [measure_univ, inter_univ, eq_comm] at this
  have hC : C = (μ s)⁻¹ := by
    rw [ENNReal.eq_inv_of_mul_eq_one_left h1]
  ext B hB
  rw [h B hB, cond_apply hs, hC]

/-- `rng.uniform(a, b)` is uniform on `[a, b]` -/
theorem uniform_interval {a b : ℝ} (hab : a < b) : (volume.restrict (Ico (0 : ℝ) 1)).map (fun u => a + (b - a) * u) = cond volume (Icc a b) := by
  have hm : Measurable fun u : ℝ => a + (b - a) * u := by fun_prop
  haveI : IsProbabilityMeasure (volume.restrict (Ico (0 : ℝ) 1)) := ⟨by simp⟩
  haveI : IsProbabilityMeasure ((volume.restrict (Ico (0 : ℝ) 1)).map (fun u => a + (b - a) * u)) := Measure.isProbabilityMeasure_map hm.aemeasurable
  refine eq_cond_of_proportional _ _ _ measurableSet_Icc (by simp) (ENNReal.ofReal |(b - a)⁻¹|) fun B hB => ?_
  rw [Measure.map_apply hm hB, Measure.restrict_apply (hm hB)]
  have e : (fun u => a + (b - a) * u) ⁻¹' B ∩ Ico (0 : ℝ) 1 = ((b - a) * ·) ⁻¹' ((a + ·) ⁻¹' (Ico a b ∩ B)) := by
    ext u
    simp only [mem_inter_iff, mem_preimage, mem_Ico]
    have hp : 0 < b - a := by linarith
    constructor
    · rintro ⟨h1, h2, h3⟩
      exact ⟨⟨by nlinarith, by nlinarith⟩, h1⟩
    · rintro ⟨⟨h1, h2⟩, h3⟩
      exact ⟨h3, by nlinarith, by nlinarith⟩
  rw [e, Real.volume_preimage_mul_left (by linarith), measure_preimage_add]
  congr 1
  exact measure_congr (Ico_ae_eq_Icc.inter (Filter.EventuallyEq.refl _ _))

/-- independent uniform coordinates are uniform in the box -/
theorem uniform_box {n : ℕ} (I : Fin n → Set ℝ) (hI : ∀ i, MeasurableSet (I i)) (hfin : ∀ i, volume (I i) ≠ ∞) :
    Measure.pi (fun i => cond volume (I i)) = cond (volume : Measure (Fin n → ℝ)) (univ.pi I) := by
  refine Measure.pi_eq fun s _ => ?_
  have h0 : MeasurableSet (univ.pi I) := MeasurableSet.univ_pi hI
  rw [cond_apply h0, ← pi_inter_distrib, volume_pi_pi, volume_pi_pi]
  simp only [fun i => cond_apply (hI i) volume (s i)]
  rw [Finset.prod_mul_distrib, ENNReal.prod_inv_distrib]
  intro i _ j _ _
  exact Or.inr (hfin j)

/-- the scaled and normalised Gaussian vector is uniform in the shell -/
theorem uniform_shell (n : ℕ) (hn : n ≠ 0) {R h : ℝ} (hR : 0 < R) (h0 : 0 ≤ h) (h1 : h < 1) (c : Fin n → ℝ) :
    ((volume.restrict (Ico (0 : ℝ) 1)).prod (gaussianVec n)).map
      (fun p i => c i + (h ^ n + (1 - h ^ n) * p.1) ^ (1 / (n : ℝ)) * R / enorm2 p.2 * p.2 i) =
      cond volume {x : Fin n → ℝ | h * R ≤ enorm2 (fun i => x i - c i) ∧ enorm2 (fun i => x i - c i) ≤ R} := by
  haveI : IsProbabilityMeasure (volume.restrict (Ico (0 : ℝ) 1)) := ⟨by simp⟩
  have hm : Measurable fun (p : ℝ × (Fin n → ℝ)) i => c i + (h ^ n + (1 - h ^ n) * p.1) ^ (1 / (n : ℝ)) * R / enorm2 p.2 * p.2 i := by
    have := measurable_enorm2 (n := n)
    fun_prop
  have hS : MeasurableSet {x : Fin n → ℝ | h * R ≤ enorm2 x ∧ enorm2 x ≤ R} :=
    (measurableSet_le measurable_const measurable_enorm2).inter (measurableSet_le measurable_enorm2 measurable_const)
  have hsub : Measurable fun (x : Fin n → ℝ) i => x i - c i := by fun_prop
  haveI := Measure.isProbabilityMeasure_map (μ := (volume.restrict (Ico (0 : ℝ) 1)).prod (gaussianVec n)) hm.aemeasurable
  obtain ⟨C, hC⟩ := lintegral_shell_law n hn hR h0 h1
  have hle : h * R ≤ R := by nlinarith
  refine eq_cond_of_proportional _ _ _ (hsub hS) ?_ C fun B hB => ?_
  · have := volume_translate c {x : Fin n → ℝ | h * R ≤ enorm2 x ∧ enorm2 x ≤ R}
    have e : volume {x : Fin n → ℝ | h * R ≤ enorm2 (fun i => x i - c i) ∧ enorm2 (fun i => x i - c i) ≤ R} =
      volume {x : Fin n → ℝ | h * R ≤ enorm2 x ∧ enorm2 x ≤ R} := this
    rw [e, volume_shell n (by positivity) hle]
    exact ENNReal.ofReal_ne_top
  · have hadd : Measurable fun (x : Fin n → ℝ) i => c i + x i := by fun_prop
    have hB' := hadd hB
    have := hC ((fun (x : Fin n → ℝ) i => c i + x i) ⁻¹' B |>.indicator 1) (measurable_one.indicator hB')
    rw [lintegral_indicator_one hB', Measure.restrict_apply hB'] at this
    rw [← lintegral_indicator_one hB, lintegral_map (measurable_one.indicator hB) hm]
    refine (lintegral_prod (fun p : ℝ × (Fin n → ℝ) => B.indicator (1 : (Fin n → ℝ) → ℝ≥0∞)
      (fun i => c i + (h ^ n + (1 - h ^ n) * p.1) ^ (1 / (n : ℝ)) * R / enorm2 p.2 * p.2 i))
      ((measurable_one.indicator hB).comp hm).aemeasurable).trans ?_
    refine Eq.trans ?_ (this.trans ?_)
    · rfl
    · congr 1
      rw [← volume_translate c, inter_comm]
      congr 1
      ext x
      simp

/-- a product of uniform distributions is uniform on the product -/
theorem uniform_prod {α β : Type*} [MeasurableSpace α] [MeasurableSpace β] (μ : Measure α) (ν : Measure β) [SigmaFinite μ] [SigmaFinite ν] (s : Set α) (t : Set β)
    (hs : MeasurableSet s) (ht : MeasurableSet t) (hs' : μ s ≠ ∞) (ht' : ν t ≠ ∞) :
    (cond μ s).prod (cond ν t) = cond (μ.prod ν) (s ×ˢ t) := by
  unfold ProbabilityTheory.cond
  rw [Measure.prod_smul_left, Measure.prod_smul_right, smul_smul, Measure.prod_restrict, Measure.prod_prod,
    ENNReal.mul_inv (Or.inr ht') (Or.inl hs')]

/-- uniform distributions are transported by volume preserving bijections -/
theorem uniform_equiv {α β : Type*} [MeasurableSpace α] [MeasurableSpace β] {μ : Measure α} {ν : Measure β} (e : α ≃ᵐ β) (he : MeasurePreserving e μ ν)
    (s : Set β) (hs : MeasurableSet s) : (cond ν s).map e.symm = cond μ (e ⁻¹' s) := by
  ext B hB
  rw [MeasurableEquiv.map_apply, cond_apply hs, cond_apply (e.measurable hs), he.measure_preimage hs.nullMeasurableSet]
  congr 1
  rw [← he.measure_preimage (hs.inter (e.symm.measurable hB)).nullMeasurableSet]
  congr 1
  ext x
  simp

/-- the rows of an array of independent random numbers are independent -/
theorem indep_rows {Ω ι κ : Type*} [MeasurableSpace Ω] {P : Measure Ω} {X : ι → κ → Ω → ℝ} (hX : ∀ i j, Measurable (X i j))
    (h : iIndepFun (fun (p : ι × κ) ω => X p.1 p.2 ω) P) : iIndepFun (fun i ω j => X i j ω) P := by
  haveI := h.isProbabilityMeasure
  have hp : ∀ i j, IsProbabilityMeasure (P.map (X i j)) := fun i j => Measure.isProbabilityMeasure_map (hX i j).aemeasurable
  rw [iIndepFun_iff_map_fun_eq_infinitePi_map (by fun_prop)]
  have h1 := h.map_fun_eq_infinitePi_map (fun p : ι × κ => hX p.1 p.2)
  have h2 : (fun ω i j => X i j ω) = MeasurableEquiv.curry ι κ ℝ ∘ fun ω (p : ι × κ) => X p.1 p.2 ω := rfl
  rw [h2, ← Measure.map_map (by fun_prop) (by fun_prop), h1, Measure.infinitePi_map_curry (fun i j => P.map (X i j))]
  congr 1
  funext i
  rw [iIndepFun.map_fun_eq_infinitePi_map (hX i) (h.precomp (g := fun j => (i, j)) (fun a b e => (Prod.mk.inj e).2))]

end Causets
