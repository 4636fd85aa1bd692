import Verif.Props.UniformSprinkle
import Verif.Lemmas.PoissonProcess

/-! # C102 — `intensify` is a Poisson process -/

namespace Causets
open CoordinateShape MeasureTheory ProbabilityTheory Set
open scoped NNReal

variable {Ω ι : Type*} [MeasurableSpace Ω] {P : Measure Ω}

/-- **Specification.** The number of events of `s'` that are not events of `s` and have coordinates in `B`. -/
noncomputable def newEventsIn (d : ℕ) (B : Set (Fin d → ℝ)) (s s' : SprState) : ℕ := by
  classical exact ((s'.events \ s.events).filter fun e => ∃ x, s'.world.crd e = some x ∧ (fun j : Fin d => x j) ∈ B).card

/-- **Specification.** `K` is the number drawn by `rng.poisson(λ)`: it has the Poisson distribution with mean `λ` and is independent of all other draws. -/
structure PoissonDraw (P : Measure Ω) (R : RandomDraws P) (lam : ℝ≥0) (K : Ω → ℕ) : Prop where
  meas : Measurable K
  law : P.map K = poissonMeasure lam
  indep : IndepFun K (fun ω k => Sum.elim R.unif R.normal k ω) P

theorem newEventsIn_eq {S : CoordinateShape} {s s' : SprState} {reg : Set Point} (g : SprGood reg s) {ids : List EId} {k : ℕ} (hl : ids.length = k) (hn : ids.Nodup)
    (hnew : ∀ e ∈ ids, ¬ s.world.heap.Exists e) (he : s'.events = s.events ∪ ids.toFinset) (X : ℕ → Fin S.dim → ℝ)
    (hcrd : ∀ (i : ℕ) (e : EId), ids[i]? = some e → s'.world.crd e = some (toPoint (X i))) (B : Set (Fin S.dim → ℝ)) :
    newEventsIn S.dim B s s' = countIn X k B := by
  classical
  unfold newEventsIn countIn
  have hdiff : s'.events \ s.events = ids.toFinset := by
    rw [he, Finset.union_sdiff_left]
    apply Finset.sdiff_eq_self_of_disjoint
    rw [Finset.disjoint_left]
    intro e h1 h2
    exact hnew e (List.mem_toFinset.1 h1) (g.exist e h2)
  rw [hdiff]
  symm
  have hget : ∀ i, i < k → ∃ e, ids[i]? = some e := fun i hi => ⟨ids[i]'(hl ▸ hi), List.getElem?_eq_getElem _⟩
  refine Finset.card_bij (fun i hi => ids[i]'(by rw [hl]; exact Finset.mem_range.1 (Finset.mem_filter.1 hi).1)) ?_ ?_ ?_
  · intro i hi
    obtain ⟨h1, h2⟩ := Finset.mem_filter.1 hi
    have hi' : i < ids.length := hl ▸ Finset.mem_range.1 h1
    refine Finset.mem_filter.2 ⟨List.mem_toFinset.2 (List.getElem_mem _), toPoint (X i), hcrd i _ (List.getElem?_eq_getElem hi'), ?_⟩
    have : (fun j : Fin S.dim => toPoint (X i) j) = X i := funext fun j => toPoint_fin _ j
    rw [this]
    exact h2
  · intro i hi j hj h
    exact (List.Nodup.getElem_inj_iff hn).1 h
  · intro e he
    obtain ⟨h1, x, hx, hB⟩ := Finset.mem_filter.1 he
    obtain ⟨i, hi, rfl⟩ := List.mem_iff_getElem.1 (List.mem_toFinset.1 h1)
    refine ⟨i, Finset.mem_filter.2 ⟨Finset.mem_range.2 (hl ▸ hi), ?_⟩, rfl⟩
    rw [hcrd i _ (List.getElem?_eq_getElem hi)] at hx
    injection hx with hx
    have : (fun j : Fin S.dim => toPoint (X i) j) = X i := funext fun j => toPoint_fin _ j
    rw [← this, hx]
    exact hB

/-- with probability one the new events of `intensify` are the points of a sequence of independent uniform points, independent of their number -/
theorem intensify_points (c : Point → Point → Bool × Bool) (it : Iter) (R : RandomDraws P) (junk : ℕ → Point) (S : CoordinateShape) (hS : S.WellFormed)
    (hb : S.name ≠ "bicone") (hcyl : S.name = "cylinder" → 2 ≤ S.dim) (hc : IsCausalOrder c S.region) (lam : ℝ≥0) (K : Ω → ℕ) (hK : PoissonDraw P R lam K) :
    ∃ X : ℕ → Ω → Fin S.dim → ℝ, UniformPoints P S X ∧ IndepFun K (fun ω i => X i ω) P ∧
      (∃ F : ℕ → (List ℕ ⊕ List ℕ → ℝ) → Fin S.dim → ℝ, (∀ i, Measurable (F i)) ∧ ∀ i ω, X i ω = F i (fun k => Sum.elim R.unif R.normal k ω)) ∧
      ∀ᵐ ω ∂P, ∀ s : SprState, SprGood S.region s → SprGood S.region (s.intensify c it (R.draws ω) junk S.dim S lam (K ω)).2 ∧
        s.events ⊆ (s.intensify c it (R.draws ω) junk S.dim S lam (K ω)).2.events ∧
        (∀ e, s.world.heap.Exists e → (s.intensify c it (R.draws ω) junk S.dim S lam (K ω)).2.world.crd e = s.world.crd e) ∧
        ∀ B, newEventsIn S.dim B s (s.intensify c it (R.draws ω) junk S.dim S lam (K ω)).2 = countIn (fun i => X i ω) (K ω) B := by
  obtain ⟨X, hX, hrows, F, hF, hXF⟩ := coords_points R junk S hS hb hcyl
  have hKX : IndepFun K (fun ω i => X i ω) P := by
    have := hK.indep.comp (φ := id) (ψ := fun d i => F i d) measurable_id (measurable_pi_lambda _ hF)
    have e : (fun ω i => X i ω) = (fun (d : List ℕ ⊕ List ℕ → ℝ) i => F i d) ∘ (fun ω k => Sum.elim R.unif R.normal k ω) := funext fun ω => funext fun i => hXF i ω
    rw [e]
    exact this
  refine ⟨X, hX, hKX, ⟨F, hF, hXF⟩, ?_⟩
  filter_upwards [sprinkle_events c it R junk S hS hb hc X hrows] with ω hω s g
  obtain ⟨ids, s', k1, k2, k3, k4, k5, k6, k7, k8, k9⟩ := (hω s g).2 lam (K ω) lam.2
  rw [k1]
  exact ⟨k2, by rw [k6]; exact Finset.subset_union_left, k9, fun B => newEventsIn_eq g k3 k4 k5 k6 (fun i => X i ω) k8 B⟩

/-- **C102 (partial).** `intensify(λ)` into a cube, cuboid, ball or cylinder, on a causet in good order (which may depend on chance): for disjoint measurable sets the numbers of new events with
coordinates in them are independent, and have Poisson distributions with mean `λ` times the fraction of the volume of the shape in the set.  Not proved, because false: the same for a bicone. -/
theorem C102_intensify_partial [Fintype ι] (c : Point → Point → Bool × Bool) (it : Iter) (R : RandomDraws P) (junk : ℕ → Point) (S : CoordinateShape) (hS : S.WellFormed)
    (hb : S.name ≠ "bicone") (hcyl : S.name = "cylinder" → 2 ≤ S.dim) (hc : IsCausalOrder c S.region) (lam : ℝ≥0) (K : Ω → ℕ) (hK : PoissonDraw P R lam K)
    (s : Ω → SprState) (g : ∀ ω, SprGood S.region (s ω)) (B : ι → Set (Fin S.dim → ℝ)) (hB : ∀ j, MeasurableSet (B j)) (hd : ∀ i j, i ≠ j → Disjoint (B i) (B j)) :
    let N : ι → Ω → ℕ := fun j ω => newEventsIn S.dim (B j) (s ω) ((s ω).intensify c it (R.draws ω) junk S.dim S lam (K ω)).2
    (∀ j, P.map (N j) = poissonMeasure (lam * (volume (B j ∩ {x | toPoint x ∈ S.region}) / ENNReal.ofReal S.volume).toNNReal)) ∧ iIndepFun N P := by
  intro N
  obtain ⟨X, hX, hKX, -, hev⟩ := intensify_points c it R junk S hS hb hcyl hc lam K hK
  have hlaw : ∀ i, P.map (X i) = ProbabilityTheory.cond volume {x : Fin S.dim → ℝ | toPoint x ∈ S.region} := fun i => hX.law i
  obtain ⟨h1, h2⟩ := poisson_process hX.meas hX.indep _ hlaw hK.meas lam hK.law hKX hB hd
  have hN : ∀ j, N j =ᵐ[P] fun ω => countIn (fun i => X i ω) (K ω) (B j) := by
    intro j
    filter_upwards [hev] with ω hω
    exact (hω (s ω) (g ω)).2.2.2 (B j)
  refine ⟨fun j => ?_, (iIndepFun_congr hN).2 h2⟩
  rw [Measure.map_congr (hN j), h1 j]
  congr 3
  rw [← (C101_probability S hS hcyl X hX 0 (B j) (hB j)).1, ← hlaw 0, Measure.map_apply (hX.meas 0) (hB j)]
  rfl

/-- the mean of the Poisson distribution -/
theorem integral_id_poisson (r : ℝ≥0) : ∫ k, (k : ℝ) ∂(poissonMeasure r) = r := by
  rw [integral_poissonMeasure]
  have h := (hasSum_one_poissonMeasure r).mul_left (r : ℝ)
  rw [mul_one] at h
  have h2 : HasSum (fun n : ℕ => (Real.exp (-r) * r ^ n / n.factorial) • (n : ℝ)) r := by
    rw [← hasSum_nat_add_iff' 1]
    simp only [Finset.range_one, Finset.sum_singleton, Nat.cast_zero, smul_zero, sub_zero]
    refine h.congr_fun fun n => ?_
    rw [Nat.factorial_succ]
    push_cast
    rw [smul_eq_mul]
    have : ((n : ℝ) + 1) ≠ 0 := by positivity
    field_simp
    ring
  exact h2.tsum_eq

/-- the fraction of the shape in `B` -/
theorem toReal_fraction (S : CoordinateShape) (hS : S.WellFormed) (B : Set (Fin S.dim → ℝ)) :
    (volume (B ∩ {x | toPoint x ∈ S.region}) / ENNReal.ofReal S.volume).toReal = volume.real (B ∩ {x | toPoint x ∈ S.region}) / S.volume := by
  rw [ENNReal.toReal_div, ENNReal.toReal_ofReal (C53_volume S hS).2.1]
  rfl

/-- **C102, a new causet (partial).** A new `SprinkledCauset(intensity=λ)`: the number of its events in a measurable set `B` has a Poisson distribution, its expectation is `Density` times the volume of the part of
the shape in `B`, and it is 0 with probability `exp(-Density * volume)`. -/
theorem C102_new_partial (c : Point → Point → Bool × Bool) (it : Iter) (R : RandomDraws P) (junk : ℕ → Point) (S : CoordinateShape) (hS : S.WellFormed)
    (hb : S.name ≠ "bicone") (hcyl : S.name = "cylinder" → 2 ≤ S.dim) (hc : IsCausalOrder c S.region) (card : ℤ) (hcard : card ≤ 0) (lam : ℝ≥0) (K : Ω → ℕ) (hK : PoissonDraw P R lam K)
    (w : World Point) (v : w.heap.Valid) (lx : w.heap.LinksExact) (B : Set (Fin S.dim → ℝ)) (hB : MeasurableSet B) :
    let fresh : SprState := ⟨∅, 0, w⟩
    let s' : Ω → SprState := fun ω => (SprState.init c it (R.draws ω) junk S.dim S card lam (K ω) w).2
    let N : Ω → ℕ := fun ω => newEventsIn S.dim B fresh (s' ω)
    (∀ ω, (s' ω).density S = lam / S.volume) ∧
    P.map N = poissonMeasure (lam * (volume (B ∩ {x | toPoint x ∈ S.region}) / ENNReal.ofReal S.volume).toNNReal) ∧
    ∫ ω, (N ω : ℝ) ∂P = lam / S.volume * volume.real (B ∩ {x | toPoint x ∈ S.region}) ∧
    P.real {ω | N ω = 0} = Real.exp (-(lam / S.volume * volume.real (B ∩ {x | toPoint x ∈ S.region}))) := by
  intro fresh s' N
  have g0 : SprGood S.region fresh := ⟨v, lx, by simp [fresh], by intro x hx; simp [fresh] at hx, by simp [fresh]⟩
  have hinit : ∀ ω, s' ω = (fresh.intensify c it (R.draws ω) junk S.dim S lam (K ω)).2 := fun ω => by
    change (SprState.init c it (R.draws ω) junk S.dim S card lam (K ω) w).2 = _
    unfold SprState.init
    rw [if_neg (by omega)]
  obtain ⟨X, hX, hKX, -, hev⟩ := intensify_points c it R junk S hS hb hcyl hc lam K hK
  have hlaw : P.map N = poissonMeasure (lam * (volume (B ∩ {x | toPoint x ∈ S.region}) / ENNReal.ofReal S.volume).toNNReal) := by
    have := (C102_intensify_partial (ι := Unit) c it R junk S hS hb hcyl hc lam K hK (fun _ => fresh) (fun _ => g0) (fun _ => B) (fun _ => hB) (fun i j h => absurd rfl h)).1 ()
    rw [← this]
    congr 1
    funext ω
    change newEventsIn S.dim B fresh (s' ω) = _
    rw [hinit]
  have hNm : AEMeasurable N P := by
    refine ⟨fun ω => countIn (fun i => X i ω) (K ω) B, measurable_countIn_random hX.meas hK.meas hB, ?_⟩
    filter_upwards [hev] with ω hω
    change newEventsIn S.dim B fresh (s' ω) = _
    rw [hinit]
    exact (hω fresh g0).2.2.2 B
  refine ⟨?_, hlaw, ?_, ?_⟩
  · intro ω
    rw [hinit]
    unfold SprState.density
    congr 1
    unfold SprState.intensify
    have : test ((lam : ℝ) < 0) = false := by simp [test]
    rw [this, if_neg (by simp)]
    dsimp only
    have h0 : fresh.intensity + (lam : ℝ) = lam := by simp [fresh]
    split
    · exact h0
    · unfold SprState.superCreate
      dsimp only
      split <;> exact h0
  · rw [← integral_map (φ := N) (f := fun k : ℕ => (k : ℝ)) hNm (by fun_prop), hlaw, integral_id_poisson]
    push_cast
    rw [toReal_fraction S hS]
    ring
  · have : {ω | N ω = 0} = N ⁻¹' {0} := rfl
    rw [this, measureReal_def, ← Measure.map_apply_of_aemeasurable hNm (measurableSet_singleton 0), hlaw, ← measureReal_def, poissonMeasure_real_singleton]
    push_cast
    rw [toReal_fraction S hS]
    simp only [pow_zero, Nat.factorial_zero, Nat.cast_one, mul_one, div_one]
    congr 1
    ring

/-- **C102, again (partial).** `intensify(λ₁)` followed by `intensify(λ₂)` into the same shape, with independent draws, is like `intensify(λ₁ + λ₂)`: the number of new events in a measurable set has the Poisson
distribution with mean `λ₁ + λ₂` times the fraction of the volume. -/
theorem C102_twice_partial (c : Point → Point → Bool × Bool) (it : Iter) (R₁ R₂ : RandomDraws P) (junk₁ junk₂ : ℕ → Point) (S : CoordinateShape) (hS : S.WellFormed)
    (hb : S.name ≠ "bicone") (hcyl : S.name = "cylinder" → 2 ≤ S.dim) (hc : IsCausalOrder c S.region) (lam₁ lam₂ : ℝ≥0) (K₁ K₂ : Ω → ℕ) (hK₁ : PoissonDraw P R₁ lam₁ K₁)
    (hK₂ : PoissonDraw P R₂ lam₂ K₂) (hind : IndepFun (fun ω => (K₁ ω, fun k => Sum.elim R₁.unif R₁.normal k ω)) (fun ω => (K₂ ω, fun k => Sum.elim R₂.unif R₂.normal k ω)) P)
    (s : SprState) (g : SprGood S.region s) (B : Set (Fin S.dim → ℝ)) (hB : MeasurableSet B) :
    P.map (fun ω => newEventsIn S.dim B s ((s.intensify c it (R₁.draws ω) junk₁ S.dim S lam₁ (K₁ ω)).2.intensify c it (R₂.draws ω) junk₂ S.dim S lam₂ (K₂ ω)).2) =
      poissonMeasure ((lam₁ + lam₂) * (volume (B ∩ {x | toPoint x ∈ S.region}) / ENNReal.ofReal S.volume).toNNReal) := by
  obtain ⟨X₁, hX₁, hKX₁, ⟨F₁, hF₁, e₁⟩, hev₁⟩ := intensify_points c it R₁ junk₁ S hS hb hcyl hc lam₁ K₁ hK₁
  obtain ⟨X₂, hX₂, hKX₂, ⟨F₂, hF₂, e₂⟩, hev₂⟩ := intensify_points c it R₂ junk₂ S hS hb hcyl hc lam₂ K₂ hK₂
  set N₁ : Ω → ℕ := fun ω => countIn (fun i => X₁ i ω) (K₁ ω) B with hN₁
  set N₂ : Ω → ℕ := fun ω => countIn (fun i => X₂ i ω) (K₂ ω) B with hN₂
  have hm : ∀ F : ℕ → (List ℕ ⊕ List ℕ → ℝ) → Fin S.dim → ℝ, (∀ i, Measurable (F i)) →
      Measurable fun p : ℕ × (List ℕ ⊕ List ℕ → ℝ) => countIn (fun i => F i p.2) p.1 B := fun F hF =>
    measurable_countIn_random (X := fun i (p : ℕ × (List ℕ ⊕ List ℕ → ℝ)) => F i p.2) (K := fun p => p.1) (fun i => (hF i).comp measurable_snd) measurable_fst hB
  have hi : IndepFun N₁ N₂ P := by
    have := hind.comp (hm F₁ hF₁) (hm F₂ hF₂)
    refine (IndepFun.congr · ?_ ?_) this
    · exact Filter.Eventually.of_forall fun ω => by simp only [Function.comp, hN₁, e₁]
    · exact Filter.Eventually.of_forall fun ω => by simp only [Function.comp, hN₂, e₂]
  have hl : ∀ (X : ℕ → Ω → Fin S.dim → ℝ) (hX : UniformPoints P S X) (K : Ω → ℕ) (hKX : IndepFun K (fun ω i => X i ω) P) (R : RandomDraws P) (lam : ℝ≥0) (hK : PoissonDraw P R lam K),
      HasLaw (fun ω => countIn (fun i => X i ω) (K ω) B) (poissonMeasure (lam * (volume (B ∩ {x | toPoint x ∈ S.region}) / ENNReal.ofReal S.volume).toNNReal)) P := by
    intro X hX K hKX R lam hK
    have hlaw : ∀ i, P.map (X i) = ProbabilityTheory.cond volume {x : Fin S.dim → ℝ | toPoint x ∈ S.region} := fun i => hX.law i
    refine ⟨(measurable_countIn_random hX.meas hK.meas hB).aemeasurable, ?_⟩
    rw [(poisson_process (ι := Unit) hX.meas hX.indep _ hlaw hK.meas lam hK.law hKX (fun _ => hB) (fun i j h => absurd rfl h)).1 ()]
    congr 3
    rw [← (C101_probability S hS hcyl X hX 0 B hB).1, ← hlaw 0, Measure.map_apply (hX.meas 0) hB]
    rfl
  have hsum := hi.hasLaw_add_poissonMeasure (hl X₁ hX₁ K₁ hKX₁ R₁ lam₁ hK₁) (hl X₂ hX₂ K₂ hKX₂ R₂ lam₂ hK₂)
  rw [← add_mul] at hsum
  rw [← hsum.map_eq]
  refine Measure.map_congr ?_
  filter_upwards [hev₁, hev₂] with ω h₁ h₂
  obtain ⟨a1, a2, a3, a4⟩ := h₁ s g
  set s1 := (s.intensify c it (R₁.draws ω) junk₁ S.dim S lam₁ (K₁ ω)).2 with hs1
  obtain ⟨b1, b2, b3, b4⟩ := h₂ s1 a1
  set s2 := (s1.intensify c it (R₂.draws ω) junk₂ S.dim S lam₂ (K₂ ω)).2 with hs2
  change _ = N₁ ω + N₂ ω
  rw [hN₁, hN₂]
  dsimp only
  rw [← a4 B, ← b4 B]
  classical
  unfold newEventsIn
  rw [← Finset.card_union_of_disjoint]
  · congr 1
    ext e
    simp only [Finset.mem_filter, Finset.mem_sdiff, Finset.mem_union]
    by_cases he : e ∈ s1.events
    · have h3 := b3 e (a1.exist e he)
      simp only [he, b2 he, h3, true_and, not_true_eq_false, false_and, or_false]
    · have h0 : e ∉ s.events := fun h => he (a2 h)
      simp only [he, h0, not_false_eq_true, false_and, and_true, false_or]
  · rw [Finset.disjoint_left]
    intro e h1 h2
    simp only [Finset.mem_filter, Finset.mem_sdiff] at h1 h2
    exact h2.1.2 h1.1.1

/-- **C102, refuted.** For the default shape of flat spacetime the statement is false: there is a content of the allocated memory for which `intensify(λ)`, `λ > 0`, in any spacetime, from any causet in good order, adds
no event in the shape, with certainty. -/
theorem C102_bicone_refuted : ∃ S, CoordinateShape.init 2 "diamond" {} = .ok S ∧ S.WellFormed ∧ MeasurableSet {x : Fin S.dim → ℝ | toPoint x ∈ S.region} ∧ ∃ junk : ℕ → Point,
    ∀ (c : Point → Point → Bool × Bool) (it : Iter) {Ω : Type} [MeasurableSpace Ω] (P : Measure Ω) (R : RandomDraws P) (lam : ℝ≥0) (K : Ω → ℕ), 0 < lam → PoissonDraw P R lam K →
      ∀ s : SprState, SprGood S.region s →
        P.map (fun ω => newEventsIn S.dim {x | toPoint x ∈ S.region} s (s.intensify c it (R.draws ω) junk S.dim S lam (K ω)).2) ≠
          poissonMeasure (lam * (volume ({x : Fin S.dim → ℝ | toPoint x ∈ S.region} ∩ {x | toPoint x ∈ S.region}) / ENNReal.ofReal S.volume).toNNReal) := by
  obtain ⟨S, hS, hw, -⟩ := C48_bicone_refuted
  obtain ⟨S', hS', -, hd, hname, hcen, hp, -⟩ := (C52_init 2 "diamond" {}).1 (by refine ⟨by norm_num, by simp, ?_, ?_, ?_, ?_, ?_⟩ <;> simp)
  rw [hS] at hS'
  injection hS' with hS'
  subst hS'
  have hn : S.name = "bicone" := by rw [hname]; simp
  obtain ⟨hr, -⟩ := hp (by simp)
  obtain ⟨hv1, -, hv3⟩ := C53_volume S hw
  have hpos : 0 < S.volume := hv3 (by rintro ⟨a, -⟩; rw [hn] at a; simp at a)
  have h0 : S.centerPoint 0 = 0 := by
    have : S.dim = 2 := by exact_mod_cast hd
    simp [centerPoint, hcen, this]
  have hm : MeasurableSet {x : Fin S.dim → ℝ | toPoint x ∈ S.region} := by
    have hf : Measurable fun x : Fin S.dim → ℝ => |toPoint x 0 - S.centerPoint 0| + distFrom 1 S.dim S.centerPoint (toPoint x) := by
      have ht : ∀ j, Measurable fun x : Fin S.dim → ℝ => toPoint x j := fun j => by
        unfold toPoint
        by_cases h : j < S.dim
        · simp only [h, dif_pos]; exact measurable_pi_apply _
        · simp only [h, dif_neg, not_false_eq_true]; exact measurable_const
      unfold distFrom
      exact (((ht 0).sub_const _).norm).add (Finset.measurable_sum _ fun j _ => ((ht j).sub_const _).pow_const 2).sqrt
    have e : {x : Fin S.dim → ℝ | toPoint x ∈ S.region} = {x : Fin S.dim → ℝ | toPoint x ∈ biconeRegion S.dim S.centerPoint (S.radius.getD 0) (S.hollow.getD 0)} := by
      simp only [region, hn, String.reduceEq, if_true, if_false]
    rw [e]
    exact (measurableSet_le measurable_const hf).inter (measurableSet_le hf measurable_const)
  have hout : ∀ x : Point, x 0 = 5 → x ∉ S.region := by
    intro x hx
    simp only [region, hn, String.reduceEq, if_true, if_false, hr]
    rintro ⟨-, h⟩
    rw [h0, hx] at h
    have h1 : 0 ≤ distFrom 1 S.dim S.centerPoint x := Real.sqrt_nonneg _
    have h2 : |(5 : ℝ) - 0| = 5 := by norm_num
    simp only [Option.getD_none, Option.getD_some] at h
    rw [h2] at h
    linarith
  refine ⟨S, hS, hw, hm, fun _ _ => 5, ?_⟩
  intro c it Ω _ P R lam K hlam hK s g heq
  have hN : (fun ω => newEventsIn S.dim {x | toPoint x ∈ S.region} s (s.intensify c it (R.draws ω) (fun _ _ => 5) S.dim S lam (K ω)).2) = fun _ => 0 := by
    funext ω
    have hemb : ∀ e ∈ s.events, (s.world.crd e).isSome := fun e he => by
      obtain ⟨x, -, hx⟩ := g.inside e he
      rw [hx]; rfl
    have hi : (s.intensify c it (R.draws ω) (fun _ _ => 5) S.dim S lam (K ω)).2.events = (create c it s.events ((List.range (K ω)).map fun _ _ => (5 : ℝ)) none true s.world).1 ∧
        (s.intensify c it (R.draws ω) (fun _ _ => 5) S.dim S lam (K ω)).2.world = (create c it s.events ((List.range (K ω)).map fun _ _ => (5 : ℝ)) none true s.world).2.2.2 := by
      unfold SprState.intensify
      have : test ((lam : ℝ) < 0) = false := by simp [test]
      rw [this, if_neg (by simp), C48_bicone_uninitialised _ _ S hn]
      dsimp only
      unfold SprState.superCreate
      dsimp only
      split <;> exact ⟨rfl, rfl⟩
    obtain ⟨ids, k1, k2, k3, k4, k5, k6, k7⟩ := C46_create c it s.events ((List.range (K ω)).map fun _ _ => (5 : ℝ)) none true s.world g.exist hemb
    classical
    unfold newEventsIn
    rw [Finset.card_eq_zero, Finset.filter_eq_empty_iff]
    rintro e he ⟨x, hx, hin⟩
    rw [Finset.mem_sdiff, hi.1, k4, Finset.mem_union] at he
    have hmem := List.mem_toFinset.1 (he.1.resolve_left he.2)
    obtain ⟨i, hil, rfl⟩ := List.mem_iff_getElem.1 hmem
    have h5 := (k6 i _ (List.getElem?_eq_getElem hil)).2
    rw [hi.2, h5] at hx
    have hlt : i < K ω := by rw [k1] at hil; simpa using hil
    simp only [List.getElem?_map, List.getElem?_range hlt, Option.map_some, Option.some.injEq] at hx
    refine hout _ ?_ hin
    have : toPoint (fun j : Fin S.dim => x j) 0 = x 0 := toPoint_fin (fun j : Fin S.dim => x j) ⟨0, hw.1⟩
    rw [this, ← hx]
  haveI := R.indep.isProbabilityMeasure
  rw [hN, Set.inter_self, hv1, ENNReal.div_self (by simpa using hpos) ENNReal.ofReal_ne_top] at heq
  have h1 := congrArg (fun μ => Measure.real μ {0}) heq
  simp only [ENNReal.toNNReal_one, mul_one, poissonMeasure_real_singleton, pow_zero, Nat.factorial_zero, Nat.cast_one, div_one] at h1
  rw [measureReal_def, Measure.map_apply measurable_const (measurableSet_singleton 0)] at h1
  simp at h1
  have : Real.exp (-(lam : ℝ)) < 1 := by rw [Real.exp_lt_one_iff]; simpa using hlam
  rw [← h1] at this
  exact lt_irrefl _ this

/-! ## The hypotheses can be met -/

theorem map_pullback {Ω' β : Type*} [MeasurableSpace Ω'] [MeasurableSpace β] {P' : Measure Ω'} {φ : Ω' → Ω} (hφ : MeasurePreserving φ P' P) {f : Ω → β} (hf : Measurable f) :
    P'.map (fun ω => f (φ ω)) = P.map f := by
  rw [← hφ.map_eq, Measure.map_map hf hφ.measurable]
  rfl

/-- the same draws on another space -/
noncomputable def RandomDraws.pullback {Ω' : Type*} [MeasurableSpace Ω'] {P' : Measure Ω'} [IsProbabilityMeasure P'] (R : RandomDraws P) (φ : Ω' → Ω) (hφ : MeasurePreserving φ P' P) :
    RandomDraws P' where
  unif k ω := R.unif k (φ ω)
  normal k ω := R.normal k (φ ω)
  unif_meas k := (R.unif_meas k).comp hφ.measurable
  normal_meas k := (R.normal_meas k).comp hφ.measurable
  unif_mem k ω := R.unif_mem k (φ ω)
  unif_law k := (map_pullback hφ (R.unif_meas k)).trans (R.unif_law k)
  normal_law k := (map_pullback hφ (R.normal_meas k)).trans (R.normal_law k)
  indep := by
    haveI := R.indep.isProbabilityMeasure
    have e : Sum.elim (fun k ω => R.unif k (φ ω)) (fun k ω => R.normal k (φ ω)) = fun k ω => Sum.elim R.unif R.normal k (φ ω) := by
      funext k ω
      rcases k with k | k <;> rfl
    have h := R.indep.map_fun_eq_infinitePi_map R.meas
    have hmp : ∀ k, P'.map (fun ω => Sum.elim R.unif R.normal k (φ ω)) = P.map (Sum.elim R.unif R.normal k) := fun k => map_pullback hφ (R.meas k)
    have hm2 : ∀ k, Measurable fun ω => Sum.elim R.unif R.normal k (φ ω) := fun k => (R.meas k).comp hφ.measurable
    rw [e, iIndepFun_iff_map_fun_eq_infinitePi_map hm2]
    have h2 : P'.map (fun ω k => Sum.elim R.unif R.normal k (φ ω)) = P.map (fun ω k => Sum.elim R.unif R.normal k ω) :=
      map_pullback hφ (f := fun ω k => Sum.elim R.unif R.normal k ω) (measurable_pi_lambda _ R.meas)
    rw [h2, h]
    congr 1
    funext k
    exact (hmp k).symm

theorem RandomDraws.pullback_all {Ω' : Type*} [MeasurableSpace Ω'] {P' : Measure Ω'} [IsProbabilityMeasure P'] (R : RandomDraws P) (φ : Ω' → Ω) (hφ : MeasurePreserving φ P' P) :
    (fun ω k => Sum.elim (R.pullback φ hφ).unif (R.pullback φ hφ).normal k ω) = (fun ω k => Sum.elim R.unif R.normal k ω) ∘ φ := by
  funext ω k
  rcases k with k | k <;> rfl

/-- A Poisson number independent of the other draws exists. -/
theorem poissonDraw_exists (lam : ℝ≥0) : ∃ R : RandomDraws ((poissonMeasure lam).prod (Measure.infinitePi drawLaw)), PoissonDraw _ R lam Prod.fst := by
  refine ⟨someDraws.pullback Prod.snd measurePreserving_snd, measurable_fst, Measure.fst_prod, ?_⟩
  rw [RandomDraws.pullback_all]
  exact indepFun_prod (μ := poissonMeasure lam) (ν := Measure.infinitePi drawLaw) (X := id) (Y := fun ω k => Sum.elim someDraws.unif someDraws.normal k ω) measurable_id
    (measurable_pi_lambda _ someDraws.meas)

/-- Two independent families of draws, as in `C102_twice_partial`, exist. -/
example (lam₁ lam₂ : ℝ≥0) : ∃ (Ω : Type) (_ : MeasurableSpace Ω) (P : Measure Ω) (R₁ R₂ : RandomDraws P) (K₁ K₂ : Ω → ℕ), PoissonDraw P R₁ lam₁ K₁ ∧ PoissonDraw P R₂ lam₂ K₂ ∧
    IndepFun (fun ω => (K₁ ω, fun k => Sum.elim R₁.unif R₁.normal k ω)) (fun ω => (K₂ ω, fun k => Sum.elim R₂.unif R₂.normal k ω)) P := by
  obtain ⟨R, hR⟩ := poissonDraw_exists lam₁
  obtain ⟨R', hR'⟩ := poissonDraw_exists lam₂
  have hp : ∀ l : ℝ≥0, IsProbabilityMeasure ((poissonMeasure l).prod (Measure.infinitePi drawLaw)) := fun l => inferInstance
  have hp₁ := hp lam₁
  have hp₂ := hp lam₂
  generalize (poissonMeasure lam₁).prod (Measure.infinitePi drawLaw) = P₁ at *
  generalize (poissonMeasure lam₂).prod (Measure.infinitePi drawLaw) = P₂ at *
  have m1 : MeasurePreserving Prod.fst (P₁.prod P₂) P₁ := measurePreserving_fst
  have m2 : MeasurePreserving Prod.snd (P₁.prod P₂) P₂ := measurePreserving_snd
  have pb : ∀ {Q : Measure (ℕ × (List ℕ ⊕ List ℕ → ℝ))} (R : RandomDraws Q) (lam : ℝ≥0) (hR : PoissonDraw Q R lam Prod.fst) (φ : _ → ℕ × (List ℕ ⊕ List ℕ → ℝ)) (hφ : MeasurePreserving φ (P₁.prod P₂) Q),
      PoissonDraw (P₁.prod P₂) (R.pullback φ hφ) lam (fun ω => (φ ω).1) := by
    intro Q R lam hR φ hφ
    refine ⟨measurable_fst.comp hφ.measurable, ?_, ?_⟩
    · exact (map_pullback hφ measurable_fst).trans hR.law
    · rw [RandomDraws.pullback_all]
      change IndepFun (Prod.fst ∘ φ) _ _
      have hi := hR.indep
      have hm : Measurable fun ω k => Sum.elim R.unif R.normal k ω := measurable_pi_lambda _ R.meas
      haveI := R.indep.isProbabilityMeasure
      rw [indepFun_iff_map_prod_eq_prod_map_map measurable_fst.aemeasurable hm.aemeasurable] at hi
      rw [indepFun_iff_map_prod_eq_prod_map_map (measurable_fst.comp hφ.measurable).aemeasurable (hm.comp hφ.measurable).aemeasurable]
      rw [← map_pullback hφ (measurable_fst.prodMk hm), ← map_pullback hφ hm, ← map_pullback hφ measurable_fst] at hi
      exact hi
  refine ⟨_, inferInstance, P₁.prod P₂, R.pullback _ m1, R'.pullback _ m2, fun ω => ω.1.1, fun ω => ω.2.1, pb R lam₁ hR _ m1, pb R' lam₂ hR' _ m2, ?_⟩
  have := indepFun_prod (μ := P₁) (ν := P₂) (X := fun ω => (ω.1, fun k => Sum.elim R.unif R.normal k ω)) (Y := fun ω => (ω.1, fun k => Sum.elim R'.unif R'.normal k ω))
    (measurable_fst.prodMk (measurable_pi_lambda _ R.meas)) (measurable_fst.prodMk (measurable_pi_lambda _ R'.meas))
  convert this using 1
  · funext ω
    exact Prod.ext rfl (congrFun (R.pullback_all _ m1) ω)
  · funext ω
    exact Prod.ext rfl (congrFun (R'.pullback_all _ m2) ω)

end Causets
