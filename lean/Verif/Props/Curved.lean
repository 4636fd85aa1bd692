import Verif.Props.FlatTol

/-! # C44 — de Sitter, anti-de Sitter and black hole causality -/

namespace Causets

/-! ## De Sitter -/

/-- **Specification.** The point of a static patch of `dim`-dimensional de Sitter spacetime of radius `alpha` in the ambient Minkowski spacetime of
`dim + 1` dimensions (the coordinate with index `dim` is the extra one). -/
noncomputable def dSEmbed (dim : ℕ) (alpha : ℝ) (x : Point) : Point := fun i =>
  let amp := Real.sqrt (alpha ^ 2 - ∑ i ∈ Finset.Ico 1 dim, (x i) ^ 2)
  if i = 0 then amp * Real.sinh (x 0 / alpha) else if i = dim then amp * Real.cosh (x 0 / alpha) else x i

/-- **Specification.** The point is inside the cosmological horizon. -/
def InHorizon (dim : ℕ) (alpha : ℝ) (x : Point) : Prop := ∑ i ∈ Finset.Ico 1 dim, (x i) ^ 2 < alpha ^ 2

/-- the embedded points lie on the hyperboloid of radius `alpha` -/
theorem dSEmbed_hyperboloid {dim : ℕ} (hd : 1 ≤ dim) {alpha : ℝ} {x : Point} (hx : InHorizon dim alpha x) :
    ∑ i ∈ Finset.Ico 1 (dim + 1), (dSEmbed dim alpha x i) ^ 2 - (dSEmbed dim alpha x 0) ^ 2 = alpha ^ 2 := by
  rw [Finset.sum_Ico_succ_top hd]
  have e : ∑ i ∈ Finset.Ico 1 dim, (dSEmbed dim alpha x i) ^ 2 = ∑ i ∈ Finset.Ico 1 dim, (x i) ^ 2 := by
    refine Finset.sum_congr rfl fun i hi => ?_
    rw [Finset.mem_Ico] at hi
    unfold dSEmbed
    dsimp only
    rw [if_neg (by omega), if_neg (by omega)]
  rw [e]
  unfold dSEmbed
  dsimp only
  rw [if_neg (by omega), if_pos rfl, if_pos rfl]
  have hs : Real.sqrt (alpha ^ 2 - ∑ i ∈ Finset.Ico 1 dim, (x i) ^ 2) ^ 2 = alpha ^ 2 - ∑ i ∈ Finset.Ico 1 dim, (x i) ^ 2 :=
    Real.sq_sqrt (by unfold InHorizon at hx; linarith)
  rw [mul_pow, mul_pow, hs]
  have := Real.cosh_sq (x 0 / alpha)
  rw [this]; ring

theorem dSEmbed_spaceSq {dim : ℕ} (hd : 1 ≤ dim) (alpha : ℝ) (x y : Point) :
    spaceSq (dim + 1) (dSEmbed dim alpha x) (dSEmbed dim alpha y) =
      spaceSq dim x y + (dSEmbed dim alpha y dim - dSEmbed dim alpha x dim) ^ 2 := by
  unfold spaceSq
  rw [Finset.sum_Ico_succ_top hd]
  congr 1
  refine Finset.sum_congr rfl fun i hi => ?_
  rw [Finset.mem_Ico] at hi
  unfold dSEmbed
  dsimp only
  rw [if_neg (by omega), if_neg (by omega), if_neg (by omega), if_neg (by omega)]

/-- the causality function in terms of the embedding -/
theorem dS_form (eps : ℝ) {dim : ℕ} (hd : 1 ≤ dim) (alpha : ℝ) (x y : Point) (hx : InHorizon dim alpha x) (hy : InHorizon dim alpha y) :
    causalityDS eps dim alpha x y =
      (test (dSEmbed dim alpha y 0 - dSEmbed dim alpha x 0 ≥ 0) &&
        test ((dSEmbed dim alpha y 0 - dSEmbed dim alpha x 0) ^ 2 ≥ spaceSq (dim + 1) (dSEmbed dim alpha x) (dSEmbed dim alpha y) - eps),
       test (dSEmbed dim alpha y 0 - dSEmbed dim alpha x 0 < 0) &&
        test ((dSEmbed dim alpha y 0 - dSEmbed dim alpha x 0) ^ 2 ≥ spaceSq (dim + 1) (dSEmbed dim alpha x) (dSEmbed dim alpha y) - eps)) := by
  unfold InHorizon at hx hy
  have e1 : dim ≠ 0 := by omega
  unfold causalityDS
  dsimp only
  have h1 : test (∑ i ∈ Finset.Ico 1 dim, (x i) ^ 2 ≥ alpha ^ 2) = false := by simp [test, hx]
  have h2 : test (∑ i ∈ Finset.Ico 1 dim, (y i) ^ 2 ≥ alpha ^ 2) = false := by simp [test, hy]
  rw [h1, h2, dSEmbed_spaceSq hd]
  simp only [Bool.or_self, Bool.false_eq_true, if_false]
  unfold dSEmbed
  simp only [if_true, e1, if_false]

theorem dS_outside (eps : ℝ) (dim : ℕ) (alpha : ℝ) (x y : Point) (h : ¬ (InHorizon dim alpha x ∧ InHorizon dim alpha y)) :
    causalityDS eps dim alpha x y = (false, false) := by
  unfold InHorizon at h
  unfold causalityDS
  dsimp only
  rw [if_pos]
  rw [Bool.or_eq_true]
  by_contra hc
  push Not at hc
  simp only [test, ne_eq, decide_eq_true_eq, ge_iff_le, not_le] at hc
  exact h hc

/-- **C44, de Sitter.** Without tolerance: two points inside the horizon are reported as "first precedes second" exactly if this is so for
their images on the hyperboloid in the ambient Minkowski spacetime; a point on or beyond the horizon is unrelated to every point. -/
theorem C44_deSitter (dim : ℕ) (hd : 2 ≤ dim) (alpha : ℝ) (x y : Point) :
    (causalityDS 0 dim alpha x y).1 = true ↔
      InHorizon dim alpha x ∧ InHorizon dim alpha y ∧ MinkLe (dim + 1) (dSEmbed dim alpha x) (dSEmbed dim alpha y) := by
  by_cases h : InHorizon dim alpha x ∧ InHorizon dim alpha y
  · rw [dS_form 0 (by omega) alpha x y h.1 h.2, minkLe_iff]
    simp [test, h.1, h.2]
  · rw [dS_outside 0 dim alpha x y h]
    simp only [Bool.false_eq_true, false_iff]
    tauto

/-- a test on the sign of an antisymmetric difference and a symmetric condition -/
theorem directions_of_form {c : Point → Point → Bool × Bool} {d : Point → Point → ℝ} {causal : Point → Point → Prop}
    (hd : ∀ x y, d y x = - d x y) (hs : ∀ x y, causal x y → causal y x)
    (hf : ∀ x y, c x y = (test (d x y ≥ 0) && test (causal x y), test (d x y < 0) && test (causal x y))) (x y : Point) :
    ¬ ((c x y).1 = true ∧ (c x y).2 = true) ∧ ((c x y).2 = true ↔ (c y x).1 = true ∧ (c x y).1 = false) := by
  rw [hf x y, hf y x, hd x y]
  by_cases hc : causal x y
  · have hc' := hs x y hc
    simp only [test, Bool.and_eq_true, decide_eq_true_eq, Bool.and_eq_false_iff, decide_eq_false_iff_not, hc, hc', and_true, not_true,
      or_false]
    constructor
    · rintro ⟨h1, h2⟩; linarith
    · constructor
      · intro h; constructor <;> linarith
      · rintro ⟨h1, h2⟩; exact not_le.1 h2
  · have hc' : ¬ causal y x := fun h => hc (hs y x h)
    simp [test, hc, hc']

theorem dS_directions (eps : ℝ) (dim : ℕ) (hd : 1 ≤ dim) (alpha : ℝ) (x y : Point) :
    ¬ ((causalityDS eps dim alpha x y).1 = true ∧ (causalityDS eps dim alpha x y).2 = true) ∧
    ((causalityDS eps dim alpha x y).2 = true ↔ (causalityDS eps dim alpha y x).1 = true ∧ (causalityDS eps dim alpha x y).1 = false) := by
  refine directions_of_form (d := fun x y => dSEmbed dim alpha y 0 - dSEmbed dim alpha x 0)
    (causal := fun x y => InHorizon dim alpha x ∧ InHorizon dim alpha y ∧ (dSEmbed dim alpha y 0 - dSEmbed dim alpha x 0) ^ 2 ≥
      spaceSq (dim + 1) (dSEmbed dim alpha x) (dSEmbed dim alpha y) - eps) (fun x y => by ring) ?_ ?_ x y
  · rintro x y ⟨h1, h2, h3⟩
    refine ⟨h2, h1, ?_⟩
    have e1 : (dSEmbed dim alpha x 0 - dSEmbed dim alpha y 0) ^ 2 = (dSEmbed dim alpha y 0 - dSEmbed dim alpha x 0) ^ 2 := by ring
    have e2 : spaceSq (dim + 1) (dSEmbed dim alpha y) (dSEmbed dim alpha x) = spaceSq (dim + 1) (dSEmbed dim alpha x) (dSEmbed dim alpha y) :=
      Finset.sum_congr rfl fun i _ => by ring
    rw [e1, e2]; exact h3
  · intro x y
    by_cases h : InHorizon dim alpha x ∧ InHorizon dim alpha y
    · rw [dS_form eps hd alpha x y h.1 h.2]
      simp [h.1, h.2]
    · rw [dS_outside eps dim alpha x y h]
      have : ∀ p : Prop, ¬ (InHorizon dim alpha x ∧ InHorizon dim alpha y ∧ p) := fun p hp => h ⟨hp.1, hp.2.1⟩
      simp [test, this]

/-- **C44, de Sitter.** Without tolerance the de Sitter causality function describes a causal order on all points, for every dimension and
radius. -/
theorem C44_deSitter_order (dim : ℕ) (hd : 2 ≤ dim) (alpha : ℝ) : IsCausalOrder (causalityDS 0 dim alpha) Set.univ where
  trans x _ y _ z _ h1 h2 := by
    rw [C44_deSitter dim hd] at *
    exact ⟨h1.1, h2.2.1, minkLe_trans h1.2.2 h2.2.2⟩
  after x _ y _ := (dS_directions 0 dim (by omega) alpha x y).2

/-- **C44, de Sitter time.** A point that precedes another one has no later time coordinate (no tolerance). -/
theorem C44_deSitter_time (dim : ℕ) (hd : 2 ≤ dim) (alpha : ℝ) (ha : 0 < alpha) (x y : Point)
    (h : (causalityDS 0 dim alpha x y).1 = true) : x 0 ≤ y 0 := by
  rw [C44_deSitter dim hd] at h
  obtain ⟨hx, hy, hm⟩ := h
  rw [minkLe_iff] at hm
  obtain ⟨h0, h1⟩ := hm
  rw [dSEmbed_spaceSq (by omega)] at h1
  have h2 : 0 ≤ spaceSq dim x y := Finset.sum_nonneg fun i _ => sq_nonneg _
  have h3 : (dSEmbed dim alpha y dim - dSEmbed dim alpha x dim) ^ 2 ≤ (dSEmbed dim alpha y 0 - dSEmbed dim alpha x 0) ^ 2 := by linarith
  have h4 := abs_le_of_sq_le_sq' h3 h0
  unfold InHorizon at hx hy
  have hd0 : dim ≠ 0 := by omega
  unfold dSEmbed at h4
  simp only [if_true, hd0, if_false] at h4
  set A := Real.sqrt (alpha ^ 2 - ∑ i ∈ Finset.Ico 1 dim, (x i) ^ 2)
  set B := Real.sqrt (alpha ^ 2 - ∑ i ∈ Finset.Ico 1 dim, (y i) ^ 2)
  have hA : 0 < A := Real.sqrt_pos.2 (by linarith)
  have hB : 0 < B := Real.sqrt_pos.2 (by linarith)
  rw [Real.sinh_eq, Real.sinh_eq, Real.cosh_eq, Real.cosh_eq] at h4
  -- light-cone coordinates: `A e^(t/alpha)` grows, `A e^(-t/alpha)` shrinks
  have h5 : A * Real.exp (x 0 / alpha) ≤ B * Real.exp (y 0 / alpha) := by nlinarith [h4.1]
  have h6 : B * Real.exp (-(y 0 / alpha)) ≤ A * Real.exp (-(x 0 / alpha)) := by nlinarith [h4.2]
  by_contra hlt
  push Not at hlt
  have hlt' : y 0 / alpha < x 0 / alpha := div_lt_div_of_pos_right hlt ha
  have e1 : Real.exp (y 0 / alpha) < Real.exp (x 0 / alpha) := Real.exp_lt_exp.2 hlt'
  have e2 : Real.exp (-(x 0 / alpha)) < Real.exp (-(y 0 / alpha)) := Real.exp_lt_exp.2 (by linarith)
  have e3 := Real.exp_pos (y 0 / alpha)
  have e4 := Real.exp_pos (-(x 0 / alpha))
  have hAB : A < B := by
    by_contra hc
    push Not at hc
    nlinarith
  have hBA : B < A := by
    by_contra hc
    push Not at hc
    nlinarith
  linarith

/-! ## Anti-de Sitter -/

/-- **C44, anti-de Sitter.** For every tolerance, dimension and radius: never both directions, and the second answer means "the second point
precedes the first, and not conversely". -/
theorem C44_AdS_directions_partial (eps : ℝ) (dim : ℕ) (alpha : ℝ) (x y : Point) :
    ¬ ((causalityAdS eps dim alpha x y).1 = true ∧ (causalityAdS eps dim alpha x y).2 = true) ∧
    ((causalityAdS eps dim alpha x y).2 = true ↔ (causalityAdS eps dim alpha y x).1 = true ∧ (causalityAdS eps dim alpha x y).1 = false) := by
  refine directions_of_form
    (d := fun x y => Real.sqrt (alpha ^ 2 + ∑ i ∈ Finset.Ico 1 dim, (y i) ^ 2) * Real.sin (y 0 / alpha) -
      Real.sqrt (alpha ^ 2 + ∑ i ∈ Finset.Ico 1 dim, (x i) ^ 2) * Real.sin (x 0 / alpha))
    (causal := fun x y => (Real.sqrt (alpha ^ 2 + ∑ i ∈ Finset.Ico 1 dim, (y i) ^ 2) * Real.sin (y 0 / alpha) -
      Real.sqrt (alpha ^ 2 + ∑ i ∈ Finset.Ico 1 dim, (x i) ^ 2) * Real.sin (x 0 / alpha)) ^ 2 +
      (Real.sqrt (alpha ^ 2 + ∑ i ∈ Finset.Ico 1 dim, (y i) ^ 2) * Real.cos (y 0 / alpha) -
      Real.sqrt (alpha ^ 2 + ∑ i ∈ Finset.Ico 1 dim, (x i) ^ 2) * Real.cos (x 0 / alpha)) ^ 2 ≥ spaceSq dim x y - eps)
    (fun x y => by ring) (fun x y h => ?_) (fun x y => rfl) x y
  have e2 : spaceSq dim y x = spaceSq dim x y := Finset.sum_congr rfl fun i _ => by ring
  rw [e2]
  nlinarith [h]

theorem sumSq_line (t a : ℝ) : ∑ i ∈ Finset.Ico 1 2, (lineP t a i) ^ 2 = a ^ 2 := by simp [lineP]

/-- the causality function of 2-dimensional anti-de Sitter spacetime with radius 1 in coordinates of the ambient space -/
theorem AdS2_form (eps t a t' a' s c s' c' : ℝ) (hs : Real.sqrt (1 + a ^ 2) * Real.sin t = s) (hc : Real.sqrt (1 + a ^ 2) * Real.cos t = c)
    (hs' : Real.sqrt (1 + a' ^ 2) * Real.sin t' = s') (hc' : Real.sqrt (1 + a' ^ 2) * Real.cos t' = c') :
    causalityAdS eps 2 1 (lineP t a) (lineP t' a') =
      (test (s' - s ≥ 0) && test ((s' - s) ^ 2 + (c' - c) ^ 2 ≥ (a' - a) ^ 2 - eps),
       test (s' - s < 0) && test ((s' - s) ^ 2 + (c' - c) ^ 2 ≥ (a' - a) ^ 2 - eps)) := by
  unfold causalityAdS
  simp only [sumSq_line, spaceSq_line 2 (le_refl _)]
  have e0 : lineP t a 0 = t := rfl
  have e0' : lineP t' a' 0 = t' := rfl
  simp only [e0, e0', div_one, one_pow, hs, hc, hs', hc']

/-- **C44, refuted for anti-de Sitter.** Radius 1, 2 dimensions, the tolerance of the code: `a = (0, 0)`, `b = (π/2, 0)`,
`c = (arctan(1/2), 2)`.  `a` precedes `b` and `b` precedes `c`, but `a` and `c` are unrelated, so the relation is not
transitive; and `c` is earlier than `b`. -/
theorem C44_AdS_refuted :
    let c := causalityAdS causalityEps 2 1
    let a := lineP 0 0
    let b := lineP (Real.pi / 2) 0
    let d := lineP (Real.arctan (1 / 2)) 2
    c a b = (true, false) ∧ c b d = (true, false) ∧ c a d = (false, false) ∧ d 0 < b 0 := by
  intro c a b d
  have h5 : Real.sqrt (1 + (2 : ℝ) ^ 2) = Real.sqrt 5 := by norm_num
  have hs5 : 0 < Real.sqrt 5 := Real.sqrt_pos.2 (by norm_num)
  have hq : Real.sqrt (1 + (1 / 2 : ℝ) ^ 2) = Real.sqrt 5 / 2 := by
    rw [show (1 + (1 / 2 : ℝ) ^ 2) = 5 / 2 ^ 2 by norm_num, Real.sqrt_div (by norm_num), Real.sqrt_sq (by norm_num)]
  have hsin : Real.sqrt (1 + (2 : ℝ) ^ 2) * Real.sin (Real.arctan (1 / 2)) = 1 := by
    rw [Real.sin_arctan, h5, hq]; field_simp
  have hcos : Real.sqrt (1 + (2 : ℝ) ^ 2) * Real.cos (Real.arctan (1 / 2)) = 2 := by
    rw [Real.cos_arctan, h5, hq]; field_simp
  have ha1 : Real.sqrt (1 + (0 : ℝ) ^ 2) * Real.sin 0 = 0 := by simp
  have ha2 : Real.sqrt (1 + (0 : ℝ) ^ 2) * Real.cos 0 = 1 := by simp
  have hb1 : Real.sqrt (1 + (0 : ℝ) ^ 2) * Real.sin (Real.pi / 2) = 1 := by simp
  have hb2 : Real.sqrt (1 + (0 : ℝ) ^ 2) * Real.cos (Real.pi / 2) = 0 := by simp
  have hE : 0 < causalityEps ∧ causalityEps < 1 := by unfold causalityEps; norm_num
  refine ⟨?_, ?_, ?_, ?_⟩
  · show causalityAdS causalityEps 2 1 (lineP 0 0) (lineP (Real.pi / 2) 0) = _
    rw [AdS2_form _ _ _ _ _ _ _ _ _ ha1 ha2 hb1 hb2]
    have e1 : (1 - 0 : ℝ) ^ 2 + (0 - 1) ^ 2 ≥ (0 - 0) ^ 2 - causalityEps := by linarith [hE.1]
    simp only [test, e1]; norm_num
  · show causalityAdS causalityEps 2 1 (lineP (Real.pi / 2) 0) (lineP (Real.arctan (1 / 2)) 2) = _
    rw [AdS2_form _ _ _ _ _ _ _ _ _ hb1 hb2 hsin hcos]
    have e1 : (1 - 1 : ℝ) ^ 2 + (2 - 0) ^ 2 ≥ (2 - 0) ^ 2 - causalityEps := by linarith [hE.1]
    simp only [test, e1]; norm_num
  · show causalityAdS causalityEps 2 1 (lineP 0 0) (lineP (Real.arctan (1 / 2)) 2) = _
    rw [AdS2_form _ _ _ _ _ _ _ _ _ ha1 ha2 hsin hcos]
    have e1 : ¬ ((1 - 0 : ℝ) ^ 2 + (2 - 1) ^ 2 ≥ (2 - 0) ^ 2 - causalityEps) := by
      push Not; linarith [hE.2]
    simp only [test, e1]; norm_num
  · exact Real.arctan_lt_pi_div_two _

end Causets
