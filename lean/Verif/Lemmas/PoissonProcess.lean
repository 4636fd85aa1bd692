import Mathlib.MeasureTheory.Function.Floor
import Mathlib.Probability.Distributions.Poisson.Basic
import Mathlib.Probability.Independence.CharacteristicFunction
import Mathlib.Probability.Independence.InfinitePi

/-! # A Poisson number of independent points is a Poisson process -/

namespace Causets
open MeasureTheory ProbabilityTheory Complex
open scoped NNReal ENNReal

section
variable {Ω α ι : Type*} [MeasurableSpace Ω] [MeasurableSpace α] {P : Measure Ω}

/-- the number of the first `k` points in `B` -/
noncomputable def countIn (x : ℕ → α) (k : ℕ) (B : Set α) : ℕ := by
  classical exact ((Finset.range k).filter fun i => x i ∈ B).card

theorem countIn_eq_sum (x : ℕ → α) (k : ℕ) (B : Set α) : countIn x k B = ∑ i ∈ Finset.range k, B.indicator (1 : α → ℕ) (x i) := by
  classical
  unfold countIn
  rw [Finset.card_filter]
  refine Finset.sum_congr rfl fun i _ => ?_
  rw [Set.indicator_apply]; rfl

theorem measurable_countIn (k : ℕ) {B : Set α} (hB : MeasurableSet B) : Measurable fun x : ℕ → α => countIn x k B := by
  simp only [countIn_eq_sum]
  exact Finset.measurable_sum _ fun i _ => (measurable_one.indicator hB).comp (measurable_pi_apply i)

theorem measurable_countIn_random {X : ℕ → Ω → α} (hX : ∀ i, Measurable (X i)) {K : Ω → ℕ} (hK : Measurable K) {B : Set α} (hB : MeasurableSet B) :
    Measurable fun ω => countIn (fun i => X i ω) (K ω) B := by
  have h : Measurable fun p : (ℕ → α) × ℕ => countIn p.1 p.2 B := measurable_from_prod_countable_left fun k => measurable_countIn k hB
  exact h.comp ((measurable_pi_lambda _ hX).prodMk hK)

/-- the mark of a point -/
noncomputable def mark [Fintype ι] (B : ι → Set α) (t : ι → ℝ) (x : α) : ℂ := 1 + ∑ j, (B j).indicator (fun _ => cexp (t j * I) - 1) x

theorem measurable_mark [Fintype ι] {B : ι → Set α} (hB : ∀ j, MeasurableSet (B j)) (t : ι → ℝ) : Measurable (mark B t) := by
  unfold mark
  exact measurable_const.add (Finset.measurable_sum _ fun j _ => measurable_const.indicator (hB j))

theorem mark_eq [Fintype ι] {B : ι → Set α} (hd : ∀ i j, i ≠ j → Disjoint (B i) (B j)) (t : ι → ℝ) (x : α) :
    mark B t x = cexp ((∑ j, t j * (B j).indicator (1 : α → ℝ) x : ℝ) * I) := by
  unfold mark
  by_cases h : ∃ j, x ∈ B j
  · obtain ⟨j, hj⟩ := h
    have hne : ∀ i, i ≠ j → x ∉ B i := fun i hi hx => Set.disjoint_left.1 (hd i j hi) hx hj
    rw [Finset.sum_eq_single j (fun i _ hi => Set.indicator_of_notMem (hne i hi) _) (by simp),
      Finset.sum_eq_single j (fun i _ hi => by rw [Set.indicator_of_notMem (hne i hi), mul_zero]) (by simp), Set.indicator_of_mem hj, Set.indicator_of_mem hj]
    simp
  · push Not at h
    rw [Finset.sum_eq_zero (fun i _ => Set.indicator_of_notMem (h i) _), Finset.sum_eq_zero (fun i _ => by rw [Set.indicator_of_notMem (h i), mul_zero])]
    simp

theorem norm_mark [Fintype ι] {B : ι → Set α} (hd : ∀ i j, i ≠ j → Disjoint (B i) (B j)) (t : ι → ℝ) (x : α) : ‖mark B t x‖ = 1 := by
  rw [mark_eq hd, Complex.norm_exp_ofReal_mul_I]

theorem prod_mark [Fintype ι] {B : ι → Set α} (hd : ∀ i j, i ≠ j → Disjoint (B i) (B j)) (t : ι → ℝ) (x : ℕ → α) (k : ℕ) :
    ∏ i ∈ Finset.range k, mark B t (x i) = cexp ((∑ j, t j * (countIn x k (B j) : ℝ) : ℝ) * I) := by
  simp only [mark_eq hd, ← Complex.exp_sum, ← Finset.sum_mul]
  congr 2
  rw [← Complex.ofReal_sum, Finset.sum_comm]
  congr 1
  refine Finset.sum_congr rfl fun j _ => ?_
  rw [← Finset.mul_sum, countIn_eq_sum]
  congr 1
  push_cast
  refine Finset.sum_congr rfl fun i _ => ?_
  by_cases h : x i ∈ B j <;> simp [h]

theorem integral_mark [Fintype ι] (ν : Measure α) [IsProbabilityMeasure ν] {B : ι → Set α} (hB : ∀ j, MeasurableSet (B j)) (t : ι → ℝ) :
    ∫ x, mark B t x ∂ν = 1 + ∑ j, ν.real (B j) * (cexp (t j * I) - 1) := by
  unfold mark
  have hi : ∀ j, Integrable ((B j).indicator (fun _ => cexp (t j * I) - 1)) ν := fun j => (integrable_const _).indicator (hB j)
  rw [integral_add (integrable_const _) (integrable_finset_sum _ fun j _ => hi j), integral_finset_sum _ fun j _ => hi j]
  simp only [integral_const, probReal_univ, one_smul]
  congr 1
  refine Finset.sum_congr rfl fun j _ => ?_
  rw [integral_indicator_const _ (hB j)]
  simp

/-- generating function of the Poisson distribution -/
theorem integral_pow_poisson (r : ℝ≥0) (z : ℂ) : ∫ k, z ^ k ∂(poissonMeasure r) = cexp (r * (z - 1)) := by
  rw [integral_poissonMeasure]
  calc ∑' a : ℕ, (Real.exp (-r) * r ^ a / a.factorial : ℝ) • z ^ a
  _ = ∑' a : ℕ, (Real.exp (-r) : ℂ) * ((r * z) ^ a / a.factorial) := by
      congr with a
      rw [Complex.real_smul]
      push_cast
      rw [mul_pow]
      ring
  _ = (Real.exp (-r)) * ∑' a : ℕ, ((r * z) ^ a / a.factorial) := tsum_mul_left
  _ = (Real.exp (-r)) * cexp (r * z) := by
      rw [(NormedSpace.expSeries_div_hasSum_exp (r * z)).tsum_eq, exp_eq_exp_ℂ]
  _ = cexp (r * (z - 1)) := by
      rw [ofReal_exp, ← Complex.exp_add]
      push_cast
      ring_nf

variable [Fintype ι]

/-- the joint characteristic function of the numbers of points in disjoint sets -/
theorem joint_charFun {X : ℕ → Ω → α} (hX : ∀ i, Measurable (X i)) (hind : iIndepFun X P) (ν : Measure α) (hlaw : ∀ i, P.map (X i) = ν)
    {K : Ω → ℕ} (hK : Measurable K) (r : ℝ≥0) (hKl : P.map K = poissonMeasure r) (hKX : IndepFun K (fun ω i => X i ω) P)
    {B : ι → Set α} (hB : ∀ j, MeasurableSet (B j)) (hd : ∀ i j, i ≠ j → Disjoint (B i) (B j)) (t : ι → ℝ) :
    ∫ ω, cexp ((∑ j, t j * (countIn (fun i => X i ω) (K ω) (B j) : ℝ) : ℝ) * I) ∂P = cexp (r * ∑ j, ν.real (B j) * (cexp (t j * I) - 1)) := by
  haveI := hind.isProbabilityMeasure
  haveI : IsProbabilityMeasure ν := hlaw 0 ▸ Measure.isProbabilityMeasure_map (hX 0).aemeasurable
  have hmX : Measurable fun ω i => X i ω := measurable_pi_lambda _ hX
  haveI : IsProbabilityMeasure (P.map fun ω i => X i ω) := Measure.isProbabilityMeasure_map hmX.aemeasurable
  have hmark := measurable_mark hB t
  have hprod : ∀ k : ℕ, Measurable fun x : ℕ → α => ∏ i ∈ Finset.range k, mark B t (x i) := fun k =>
    Finset.measurable_prod (f := fun i (x : ℕ → α) => mark B t (x i)) _ fun i _ => hmark.comp (measurable_pi_apply i)
  have hG : Measurable fun p : ℕ × (ℕ → α) => ∏ i ∈ Finset.range p.1, mark B t (p.2 i) :=
    measurable_from_prod_countable_right (f := fun p : ℕ × (ℕ → α) => ∏ i ∈ Finset.range p.1, mark B t (p.2 i)) (fun k => hprod k)
  have hjoint : P.map (fun ω => (K ω, fun i => X i ω)) = (poissonMeasure r).prod (P.map fun ω i => X i ω) := by
    rw [← hKl]
    exact (indepFun_iff_map_prod_eq_prod_map_map hK.aemeasurable hmX.aemeasurable).1 hKX
  have e1 : ∫ ω, cexp ((∑ j, t j * (countIn (fun i => X i ω) (K ω) (B j) : ℝ) : ℝ) * I) ∂P =
      ∫ p, ∏ i ∈ Finset.range p.1, mark B t (p.2 i) ∂(P.map (fun ω => (K ω, fun i => X i ω))) := by
    rw [integral_map (hK.prodMk hmX).aemeasurable hG.aestronglyMeasurable]
    simp only [prod_mark hd]
  have hint : Integrable (fun p : ℕ × (ℕ → α) => ∏ i ∈ Finset.range p.1, mark B t (p.2 i)) ((poissonMeasure r).prod (P.map fun ω i => X i ω)) := by
    refine Integrable.of_bound hG.aestronglyMeasurable 1 (Filter.Eventually.of_forall fun p => ?_)
    rw [norm_prod]
    exact le_of_eq (Finset.prod_eq_one fun i _ => norm_mark hd t _)
  rw [e1, hjoint, integral_prod _ hint]
  have e2 : ∀ k : ℕ, ∫ x, ∏ i ∈ Finset.range k, mark B t (x i) ∂(P.map fun ω i => X i ω) = (∫ x, mark B t x ∂ν) ^ k := by
    intro k
    rw [integral_map hmX.aemeasurable (hprod k).aestronglyMeasurable]
    simp only [Finset.prod_range]
    have hk := hind.precomp (g := fun i : Fin k => (i : ℕ)) Fin.val_injective
    have := iIndepFun.integral_fun_prod_comp (f := fun (_ : Fin k) => mark B t) hk (fun i => (hX i).aemeasurable) (fun i => hmark.aestronglyMeasurable)
    refine this.trans ?_
    have e3 : ∀ i : Fin k, ∫ ω, mark B t (X i ω) ∂P = ∫ x, mark B t x ∂ν := fun i => by
      rw [← hlaw i, integral_map (hX i).aemeasurable hmark.aestronglyMeasurable]
    simp only [e3, Finset.prod_const, Finset.card_univ, Fintype.card_fin]
  simp only [e2]
  rw [integral_pow_poisson, integral_mark ν hB, add_sub_cancel_left]

/-- **Poisson process**: the numbers of points in disjoint sets are independent and have Poisson distributions -/
theorem poisson_process {X : ℕ → Ω → α} (hX : ∀ i, Measurable (X i)) (hind : iIndepFun X P) (ν : Measure α) (hlaw : ∀ i, P.map (X i) = ν)
    {K : Ω → ℕ} (hK : Measurable K) (r : ℝ≥0) (hKl : P.map K = poissonMeasure r) (hKX : IndepFun K (fun ω i => X i ω) P)
    {B : ι → Set α} (hB : ∀ j, MeasurableSet (B j)) (hd : ∀ i j, i ≠ j → Disjoint (B i) (B j)) :
    (∀ j, P.map (fun ω => countIn (fun i => X i ω) (K ω) (B j)) = poissonMeasure (r * (ν (B j)).toNNReal)) ∧
    iIndepFun (fun j ω => countIn (fun i => X i ω) (K ω) (B j)) P := by
  haveI := hind.isProbabilityMeasure
  haveI : IsProbabilityMeasure ν := hlaw 0 ▸ Measure.isProbabilityMeasure_map (hX 0).aemeasurable
  have hN : ∀ j, Measurable fun ω => countIn (fun i => X i ω) (K ω) (B j) := fun j => measurable_countIn_random hX hK (hB j)
  have hNr : ∀ j, Measurable fun ω => (countIn (fun i => X i ω) (K ω) (B j) : ℝ) := fun j => (measurable_from_top (f := fun n : ℕ => (n : ℝ))).comp (hN j)
  have key := fun t => joint_charFun hX hind ν hlaw hK r hKl hKX hB hd t
  -- one set
  have hone : ∀ j (s : ℝ), charFun (P.map fun ω => (countIn (fun i => X i ω) (K ω) (B j) : ℝ)) s = cexp (r * (ν.real (B j) * (cexp (s * I) - 1))) := by
    classical
    intro j s
    rw [charFun_apply_real, integral_map (hNr j).aemeasurable (by fun_prop)]
    have := key (Pi.single j s)
    rw [Finset.sum_eq_single j (fun i _ hi => by simp [Pi.single_eq_of_ne hi]) (by simp)] at this
    simp only [Pi.single_eq_same] at this
    rw [← this]
    refine integral_congr_ae (Filter.Eventually.of_forall fun ω => ?_)
    dsimp only
    rw [Finset.sum_eq_single j (fun i _ hi => by simp [Pi.single_eq_of_ne hi]) (by simp), Pi.single_eq_same]
    push_cast
    ring_nf
  refine ⟨fun j => ?_, ?_⟩
  · apply (MeasurableEmbedding.natCast (α := ℝ)).map_injective
    rw [Measure.map_map (by fun_prop) (hN j)]
    haveI : IsProbabilityMeasure (P.map fun ω => (countIn (fun i => X i ω) (K ω) (B j) : ℝ)) := Measure.isProbabilityMeasure_map (hNr j).aemeasurable
    refine Measure.ext_of_charFun (μ := P.map fun ω => (countIn (fun i => X i ω) (K ω) (B j) : ℝ)) (funext fun s => ?_)
    rw [hone, charFun_map_cast_poissonMeasure]
    congr 1
    push_cast
    rw [mul_assoc]
    rfl
  · have hreal : iIndepFun (fun j ω => (countIn (fun i => X i ω) (K ω) (B j) : ℝ)) P := by
      rw [iIndepFun_iff_charFun_pi (fun j => (hNr j).aemeasurable)]
      intro t
      simp only [hone]
      have hmL : Measurable fun ω => WithLp.toLp 2 fun j => (countIn (fun i => X i ω) (K ω) (B j) : ℝ) :=
        (PiLp.continuous_toLp 2 _).measurable.comp (measurable_pi_lambda _ hNr)
      rw [charFun_apply, integral_map hmL.aemeasurable (by fun_prop)]
      have := key t.ofLp
      rw [Finset.mul_sum, Complex.exp_sum] at this
      rw [← this]
      refine integral_congr_ae (Filter.Eventually.of_forall fun ω => ?_)
      dsimp only
      rw [PiLp.inner_apply]
      simp [mul_comm]
    have := hreal.comp (fun _ x => ⌊x⌋₊) (fun _ => Nat.measurable_floor)
    simpa [Function.comp_def] using this

end

end Causets
