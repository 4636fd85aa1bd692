import Verif.Props.SpacetimeOrder
import Verif.Props.Metrics
import Verif.Props.FlatTol
import Mathlib.Analysis.SpecialFunctions.Artanh

/-! # C125 — two-dimensional spacetimes: light-cone coordinates -/

namespace Causets

theorem hyperbolic_interval (a b ρ σ : ℝ) :
    (Real.sinh b * Real.cosh ρ - Real.sinh a * Real.cosh σ) ^ 2 - (Real.cosh b * Real.cosh ρ - Real.cosh a * Real.cosh σ) ^ 2 -
      (Real.sinh σ * Real.cosh ρ - Real.sinh ρ * Real.cosh σ) ^ 2 = 2 * Real.cosh ρ * Real.cosh σ * (Real.cosh (b - a) - Real.cosh (σ - ρ)) := by
  have h1 := Real.cosh_sq a
  have h2 := Real.cosh_sq b
  have h3 := Real.cosh_sq ρ
  have h4 := Real.cosh_sq σ
  rw [Real.cosh_sub, Real.cosh_sub]
  linear_combination (-Real.cosh ρ ^ 2) * h2 - Real.cosh σ ^ 2 * h1 + Real.cosh ρ ^ 2 * h4 + Real.cosh σ ^ 2 * h3

theorem hyperbolic_time (a b ρ σ : ℝ) :
    2 * (Real.sinh b * Real.cosh ρ - Real.sinh a * Real.cosh σ) = (Real.sinh (b + ρ) - Real.sinh (a + σ)) + (Real.sinh (b - ρ) - Real.sinh (a - σ)) := by
  rw [Real.sinh_add, Real.sinh_add, Real.sinh_sub, Real.sinh_sub]
  ring

theorem hyperbolic_cone (a b ρ σ : ℝ) :
    (0 ≤ Real.sinh b * Real.cosh ρ - Real.sinh a * Real.cosh σ ∧
      (Real.sinh σ * Real.cosh ρ - Real.sinh ρ * Real.cosh σ) ^ 2 + (Real.cosh b * Real.cosh ρ - Real.cosh a * Real.cosh σ) ^ 2 ≤
        (Real.sinh b * Real.cosh ρ - Real.sinh a * Real.cosh σ) ^ 2) ↔ |σ - ρ| ≤ b - a := by
  have hp : 0 < 2 * Real.cosh ρ * Real.cosh σ := by positivity
  have h1 := hyperbolic_interval a b ρ σ
  have h2 := hyperbolic_time a b ρ σ
  have h3 : (Real.sinh σ * Real.cosh ρ - Real.sinh ρ * Real.cosh σ) ^ 2 + (Real.cosh b * Real.cosh ρ - Real.cosh a * Real.cosh σ) ^ 2 ≤
        (Real.sinh b * Real.cosh ρ - Real.sinh a * Real.cosh σ) ^ 2 ↔ |σ - ρ| ≤ |b - a| := by
    rw [← Real.cosh_le_cosh, ← sub_nonneg (b := Real.cosh (σ - ρ)), ← mul_nonneg_iff_of_pos_left hp, ← h1]
    constructor <;> intro h <;> linarith
  rw [h3]
  constructor
  · rintro ⟨h4, h5⟩
    rcases le_or_gt 0 (b - a) with h | h
    · rwa [abs_of_nonneg h] at h5
    · rw [abs_of_neg h] at h5
      obtain ⟨h6, h7⟩ := abs_le.1 h5
      have e1 : Real.sinh (b + ρ) ≤ Real.sinh (a + σ) := Real.sinh_le_sinh.2 (by linarith)
      have e2 : Real.sinh (b - ρ) ≤ Real.sinh (a - σ) := Real.sinh_le_sinh.2 (by linarith)
      have e3 : Real.sinh (b + ρ) = Real.sinh (a + σ) := by linarith
      have e4 : Real.sinh (b - ρ) = Real.sinh (a - σ) := by linarith
      have e5 := Real.sinh_injective e3
      have e6 := Real.sinh_injective e4
      linarith
  · intro h
    have h0 : 0 ≤ b - a := (abs_nonneg _).trans h
    refine ⟨?_, by rwa [abs_of_nonneg h0]⟩
    obtain ⟨h6, h7⟩ := abs_le.1 h
    have e1 : Real.sinh (a + σ) ≤ Real.sinh (b + ρ) := Real.sinh_le_sinh.2 (by linarith)
    have e2 : Real.sinh (a - σ) ≤ Real.sinh (b - ρ) := Real.sinh_le_sinh.2 (by linarith)
    linarith

/-- the condition `|s| ≤ t` in light-cone coordinates -/
theorem cone_coords (s s' t t' : ℝ) : |s' - s| ≤ t' - t ↔ t - s ≤ t' - s' ∧ t + s ≤ t' + s' := by
  rw [abs_le]
  constructor
  · rintro ⟨h1, h2⟩; constructor <;> linarith
  · rintro ⟨h1, h2⟩; constructor <;> linarith

/-- **C125, de Sitter spacetime.** Inside the horizon of two-dimensional de Sitter spacetime the causal relation is the product order of the light-cone coordinates `t / alpha ∓ artanh (r / alpha)`. -/
theorem C125_deSitter {alpha : ℝ} (ha : 0 < alpha) (x y : Point) (hx : |x 1| < alpha) (hy : |y 1| < alpha) :
    (causalityDS 0 2 alpha x y).1 = true ↔
      x 0 / alpha - Real.artanh (x 1 / alpha) ≤ y 0 / alpha - Real.artanh (y 1 / alpha) ∧ x 0 / alpha + Real.artanh (x 1 / alpha) ≤ y 0 / alpha + Real.artanh (y 1 / alpha) := by
  have hor : ∀ z : Point, |z 1| < alpha → InHorizon 2 alpha z := by
    intro z hz
    unfold InHorizon
    simpa using sq_lt_sq' (by linarith [(abs_lt.1 hz).1]) (abs_lt.1 hz).2
  have amp : ∀ z : Point, |z 1| < alpha → Real.sqrt (alpha ^ 2 - z 1 ^ 2) = alpha / Real.cosh (Real.artanh (z 1 / alpha)) ∧
      z 1 = alpha * (Real.sinh (Real.artanh (z 1 / alpha)) / Real.cosh (Real.artanh (z 1 / alpha))) := by
    intro z hz
    obtain ⟨h1, h2⟩ := abs_lt.1 hz
    have hm : z 1 / alpha ∈ Set.Ioo (-1 : ℝ) 1 := ⟨by rw [lt_div_iff₀ ha]; linarith, by rw [div_lt_iff₀ ha]; linarith⟩
    constructor
    · rw [Real.cosh_artanh hm]
      have : alpha ^ 2 - z 1 ^ 2 = alpha ^ 2 * (1 - (z 1 / alpha) ^ 2) := by field_simp
      rw [this, Real.sqrt_mul (sq_nonneg _), Real.sqrt_sq ha.le]
      simp
    · rw [← Real.tanh_eq_sinh_div_cosh, Real.tanh_artanh hm]
      field_simp
  rw [← cone_coords, ← hyperbolic_cone, C44_deSitter 2 le_rfl, and_iff_right (hor x hx), and_iff_right (hor y hy), minkLe_iff]
  obtain ⟨ax, bx⟩ := amp x hx
  obtain ⟨ay, by'⟩ := amp y hy
  set ρ := Real.artanh (x 1 / alpha)
  set σ := Real.artanh (y 1 / alpha)
  have hc := Real.cosh_pos ρ
  have hC := Real.cosh_pos σ
  have e0 : ∀ z : Point, dSEmbed 2 alpha z 0 = Real.sqrt (alpha ^ 2 - z 1 ^ 2) * Real.sinh (z 0 / alpha) := fun z => by simp [dSEmbed]
  have e1 : ∀ z : Point, dSEmbed 2 alpha z 1 = z 1 := fun z => by simp [dSEmbed]
  have e2 : ∀ z : Point, dSEmbed 2 alpha z 2 = Real.sqrt (alpha ^ 2 - z 1 ^ 2) * Real.cosh (z 0 / alpha) := fun z => by simp [dSEmbed]
  have es : spaceSq (2 + 1) (dSEmbed 2 alpha x) (dSEmbed 2 alpha y) = (y 1 - x 1) ^ 2 + (dSEmbed 2 alpha y 2 - dSEmbed 2 alpha x 2) ^ 2 := by
    rw [dSEmbed_spaceSq (by norm_num)]
    simp [spaceSq]
  set k := alpha / (Real.cosh ρ * Real.cosh σ)
  have hk : 0 < k := by positivity
  have t0 : dSEmbed 2 alpha y 0 - dSEmbed 2 alpha x 0 = k * (Real.sinh (y 0 / alpha) * Real.cosh ρ - Real.sinh (x 0 / alpha) * Real.cosh σ) := by
    rw [e0, e0, ax, ay]; simp only [k]; field_simp
  have t2 : dSEmbed 2 alpha y 2 - dSEmbed 2 alpha x 2 = k * (Real.cosh (y 0 / alpha) * Real.cosh ρ - Real.cosh (x 0 / alpha) * Real.cosh σ) := by
    rw [e2, e2, ax, ay]; simp only [k]; field_simp
  have t1 : y 1 - x 1 = k * (Real.sinh σ * Real.cosh ρ - Real.sinh ρ * Real.cosh σ) := by
    rw [bx, by']; simp only [k]; field_simp
  rw [es, t0, t2, t1, mul_pow, mul_pow, mul_pow, ← mul_add, mul_le_mul_iff_right₀ (by positivity), mul_nonneg_iff_of_pos_left hk]

/-- **Specification.** The ingoing light-cone coordinate of an event in Eddington-Finkelstein coordinates. -/
noncomputable def kruskalV (x : Point) : ℝ := x 0 + |x 1|

/-- **Specification.** The outgoing light-cone coordinate of Kruskal and Szekeres (up to a monotone function), negative outside and positive inside. -/
noncomputable def kruskalU (rS : ℝ) (x : Point) : ℝ :=
  if |x 1| < rS then Real.exp (rayTime 2 rS |x 1| - x 0) else - Real.exp (rayTime 2 rS |x 1| - x 0)

theorem rayTime_inside_lt {rS p q : ℝ} (hS : 0 < rS) (hp : 0 ≤ p) (hpq : p < q) (hq : q < rS) : rayTime 2 rS q - rayTime 2 rS p < p - q := by
  have h1 : p / rS < q / rS := div_lt_div_of_pos_right hpq hS
  have h2 : q / rS < 1 := (div_lt_one hS).2 hq
  have h3 : 0 ≤ p / rS := div_nonneg hp hS.le
  unfold rayTime
  rw [abs_of_neg (by linarith), abs_of_neg (by linarith)]
  have h4 : Real.log (-(q / rS - 1)) - Real.log (-(p / rS - 1)) < p / rS - q / rS := by
    rw [← Real.log_div (by linarith) (by linarith)]
    have h5 : 0 < -(q / rS - 1) / -(p / rS - 1) := div_pos (by linarith) (by linarith)
    have h6 : -(q / rS - 1) / -(p / rS - 1) ≠ 1 := by
      rw [Ne, div_eq_one_iff_eq (by linarith)]
      intro h; linarith
    have h7 := Real.log_lt_sub_one_of_pos h5 h6
    have h8 : -(q / rS - 1) / -(p / rS - 1) - 1 ≤ p / rS - q / rS := by
      rw [sub_le_iff_le_add, div_le_iff₀ (by linarith)]
      nlinarith
    linarith
  have h9 : 2 * rS * (Real.log (-(q / rS - 1)) - Real.log (-(p / rS - 1))) < 2 * rS * (p / rS - q / rS) := mul_lt_mul_of_pos_left h4 (by linarith)
  have e1 : 2 * rS * (p / rS - q / rS) = 2 * (p - q) := by field_simp
  rw [e1] at h9
  linarith

/-- **C125, black holes.** On one side of the black hole (off the horizon, inside and outside) the causal relation in Eddington-Finkelstein coordinates is the product order of the light-cone coordinates of
Kruskal and Szekeres. -/
theorem C125_EddingtonFinkelstein {rS : ℝ} (hS : 0 < rS) (x y : Point) (hx : |x 1| ≠ rS) (hy : |y 1| ≠ rS) (hxy : 0 ≤ x 1 * y 1) :
    (causalityBH .eddingtonFinkelstein rS x y).1 = true ↔ kruskalU rS x ≤ kruskalU rS y ∧ kruskalV x ≤ kruskalV y := by
  rw [C44_EF hS x y hx hy]
  unfold EFLe kruskalU kruskalV
  have p1 := Real.exp_pos (rayTime 2 rS |x 1| - x 0)
  have p2 := Real.exp_pos (rayTime 2 rS |y 1| - y 0)
  rcases lt_or_gt_of_ne hx with h1 | h1 <;> rcases lt_or_gt_of_ne hy with h2 | h2
  · rw [if_pos h1, if_pos h2, Real.exp_le_exp]
    constructor
    · rintro ⟨_, a, b, _⟩
      have := (b h1).2
      constructor <;> linarith
    · rintro ⟨a, b⟩
      refine ⟨hxy, by linarith, fun _ => ⟨?_, by linarith⟩, fun h => absurd h h1.not_gt⟩
      by_contra hlt
      have := rayTime_inside_lt hS (abs_nonneg _) (not_le.1 hlt) h2
      linarith
  · rw [if_pos h1, if_neg h2.not_gt]
    constructor
    · rintro ⟨_, a, b, _⟩
      linarith [(b h1).1]
    · rintro ⟨a, b⟩
      linarith
  · rw [if_neg h1.not_gt, if_pos h2]
    constructor
    · rintro ⟨_, a, b, _⟩
      constructor <;> linarith
    · rintro ⟨a, b⟩
      exact ⟨hxy, by linarith, fun h => absurd h h1.not_gt, fun _ h => absurd h h2.not_gt⟩
  · rw [if_neg h1.not_gt, if_neg h2.not_gt, neg_le_neg_iff, Real.exp_le_exp]
    constructor
    · rintro ⟨_, a, b, c⟩
      have := c h1 h2
      constructor <;> linarith
    · rintro ⟨a, b⟩
      exact ⟨hxy, by linarith, fun h => absurd h h1.not_gt, fun _ _ => by linarith⟩

/-- **C125, black holes.** The same for the Schwarzschild metric. -/
theorem C125_Schwarzschild {rS : ℝ} (hS : 0 < rS) (x y : Point) (hx : |x 1| ≠ rS) (hy : |y 1| ≠ rS) (hxy : 0 ≤ x 1 * y 1) :
    (causalityBH .schwarzschild rS x y).1 = true ↔
      kruskalU rS (toEddingtonFinkelstein rS x) ≤ kruskalU rS (toEddingtonFinkelstein rS y) ∧ kruskalV (toEddingtonFinkelstein rS x) ≤ kruskalV (toEddingtonFinkelstein rS y) := by
  rw [← C124_metrics hS x y hx hy]
  exact C125_EddingtonFinkelstein hS _ _ (by rwa [toEF_one]) (by rwa [toEF_one]) (by rwa [toEF_one, toEF_one])

/-- **Specification.** The spacetimes with one spatial coordinate and no period, without anti-de Sitter spacetime (or with no spatial coordinate). -/
def SpacetimeObj.TwoDim : SpacetimeObj → Prop
  | .base => True
  | .flat M => M.dim ≤ 2 ∧ M.isPeriodic = false
  | .deSitter d _ => d = 2
  | .antiDeSitter _ _ => False
  | .blackHole _ _ => True

/-- **Specification.** Points inside the horizon of de Sitter spacetime; points on one side of a black hole and off its horizon. -/
def SpacetimeObj.Patch : SpacetimeObj → Set Point → Prop
  | .deSitter _ a, P => ∀ x ∈ P, |x 1| < a
  | .blackHole r _, P => ∀ x ∈ P, |x 1| ≠ r ∧ ∀ y ∈ P, 0 ≤ x 1 * y 1
  | _, _ => True

/-- **C125, light-cone coordinates.** In every two-dimensional spacetime there are two coordinates such that the causal relation is their product order. -/
theorem C125_lightCones (M : SpacetimeObj) (hM : M.Constructed) (h2 : M.TwoDim) (P : Set Point) (hP : M.Patch P) :
    ∃ U V : Point → ℝ, ∀ x ∈ P, ∀ y ∈ P, M.Le x y ↔ U x ≤ U y ∧ V x ≤ V y := by
  cases M with
  | base => exact ⟨fun x => x 0, fun x => x 0, fun x _ y _ => (and_self_iff).symm⟩
  | antiDeSitter d a => exact h2.elim
  | flat M =>
    obtain ⟨hd, hp⟩ := h2
    have hd1 := hM.dim_pos
    have hp' : ∀ i, ¬ M.periods i > 0 := fun i => by unfold FlatSpacetime.periods; simp [hp]
    have hle : ∀ x y, SpacetimeObj.Le (.flat M) x y ↔ MinkLe M.dim x y := fun x y => torusLe_of_no_period (fun i _ _ => hp' _) x y
    have hd1' : 1 ≤ M.dim := hd1
    by_cases h : M.dim = 1
    · refine ⟨fun x => x 0, fun x => x 0, fun x _ y _ => ?_⟩
      rw [hle, h, and_self_iff]
      simp [MinkLe]
    · have h' : M.dim = 2 := by omega
      refine ⟨fun x => x 0 - x 1, fun x => x 0 + x 1, fun x _ y _ => ?_⟩
      rw [hle, h', ← cone_coords]
      simp [MinkLe, Real.sqrt_sq_eq_abs]
  | deSitter d a =>
    have hd : d = 2 := h2
    subst hd
    obtain ⟨d', hd'⟩ := hM
    have ha : 0 < a := by
      unfold dSInit at hd'
      split at hd'
      · cases hd'
      · split at hd'
        · rename_i h; simpa [test] using h
        · cases hd'
    exact ⟨fun x => x 0 / a - Real.artanh (x 1 / a), fun x => x 0 / a + Real.artanh (x 1 / a), fun x hx y hy => by
      rw [← C125_deSitter ha x y (hP x hx) (hP y hy), C44_deSitter 2 le_rfl]; rfl⟩
  | blackHole r m =>
    obtain ⟨d', hd'⟩ := hM
    have hr : 0 < r := by
      unfold bhInit at hd'
      split at hd'
      · cases hd'
      · split at hd'
        · cases hd'
        · dsimp only at hd'
          split at hd'
          · rename_i h; simpa [test] using h
          · cases hd'
    cases m with
    | eddingtonFinkelstein =>
      exact ⟨kruskalU r, kruskalV, fun x hx y hy => by
        rw [← C125_EddingtonFinkelstein hr x y (hP x hx).1 (hP y hy).1 ((hP x hx).2 y hy), C44_EF hr x y (hP x hx).1 (hP y hy).1]; rfl⟩
    | schwarzschild =>
      exact ⟨fun x => kruskalU r (toEddingtonFinkelstein r x), fun x => kruskalV (toEddingtonFinkelstein r x), fun x hx y hy => by
        rw [← C125_Schwarzschild hr x y (hP x hx).1 (hP y hy).1 ((hP x hx).2 y hy), C44_Schwarzschild hr x y (hP x hx).1 (hP y hy).1]; rfl⟩

/-- numbering by an injective key -/
theorem number_by {α β : Type} [Fintype α] [LinearOrder β] (key : α → β) (hk : Function.Injective key) : ∃ e : α ≃ Fin (Fintype.card α), ∀ a b, e a < e b ↔ key a < key b := by
  letI : LinearOrder α := LinearOrder.lift' key hk
  exact ⟨(Fintype.orderIsoFinOfCardEq α rfl).symm.toEquiv, fun a b => (Fintype.orderIsoFinOfCardEq α rfl).symm.lt_iff_lt⟩

/-- a product order of two coordinates is the 2D order of a permutation -/
theorem permutation_of_coords (S : Finset EId) (R : EId → EId → Prop) (u v : EId → ℝ) (hR : ∀ a ∈ S, ∀ b ∈ S, R a b ↔ a ≠ b ∧ u a ≤ u b ∧ v a ≤ v b) (hd : ∀ a ∈ S, ∀ b ∈ S, R a b → ¬ R b a) :
    ∃ (n : ℕ) (f : Fin n ≃ S) (σ : Equiv.Perm (Fin n)), ∀ i j, R (f i) (f j) ↔ i < j ∧ σ i < σ j := by
  have inj : ∀ a b : S, u a = u b → v a = v b → a = b := by
    intro a b h1 h2
    by_contra hne
    have hne' : (a : EId) ≠ b := fun h => hne (Subtype.ext h)
    exact hd a a.2 b b.2 ((hR a a.2 b b.2).2 ⟨hne', h1.le, h2.le⟩) ((hR b b.2 a a.2).2 ⟨hne'.symm, h1.ge, h2.ge⟩)
  obtain ⟨e1, h1⟩ := number_by (fun a : S => toLex (u a, v a)) fun a b h => inj a b (congrArg (fun p => (ofLex p).1) h) (congrArg (fun p => (ofLex p).2) h)
  obtain ⟨e2, h2⟩ := number_by (fun a : S => toLex (v a, u a)) fun a b h => inj a b (congrArg (fun p => (ofLex p).2) h) (congrArg (fun p => (ofLex p).1) h)
  refine ⟨Fintype.card S, e1.symm, e1.symm.trans e2, fun i j => ?_⟩
  have k1 := h1 (e1.symm i) (e1.symm j)
  have k2 := h2 (e1.symm i) (e1.symm j)
  rw [Equiv.apply_symm_apply, Equiv.apply_symm_apply, Prod.Lex.toLex_lt_toLex] at k1
  rw [Prod.Lex.toLex_lt_toLex] at k2
  rw [Equiv.trans_apply, Equiv.trans_apply, k1, k2, hR _ (e1.symm i).2 _ (e1.symm j).2]
  generalize e1.symm i = a
  generalize e1.symm j = b
  dsimp only
  constructor
  · rintro ⟨hne, ha, hb⟩
    have hne' : ¬ (u a = u b ∧ v a = v b) := fun h => hne (congrArg Subtype.val (inj a b h.1 h.2))
    rcases ha.lt_or_eq with h | h <;> rcases hb.lt_or_eq with h' | h'
    · exact ⟨Or.inl h, Or.inl h'⟩
    · exact ⟨Or.inl h, Or.inr ⟨h', h⟩⟩
    · exact ⟨Or.inr ⟨h, h'⟩, Or.inl h'⟩
    · exact absurd ⟨h, h'⟩ hne'
  · rintro ⟨ha, hb⟩
    have hne : (a : EId) ≠ b := by
      intro h
      rcases ha with h' | h' <;> rw [h] at h' <;> simp at h'
    exact ⟨hne, ha.elim le_of_lt fun h => h.1.le, hb.elim le_of_lt fun h => h.1.le⟩

/-- **C125, embedded causets.** The causal set that `EmbeddedCauset` creates from different rows in a two-dimensional spacetime is the 2D order of a permutation: its events can be numbered such that
event `i` precedes event `j` exactly if `i < j` and `σ i < σ j` (without tolerance, or if no pair is so close to a light cone that the tolerance matters). -/
theorem C125_embedded (eps : ℝ) (it : Iter) (sp : SpacetimeArg) (sh : ShapeArg) (co : CoordsArg) (dim : ℤ) (hsp : ∀ N, sp = .obj N → N.Constructed)
    (hn : ¬ NoDimension sp sh co dim) {d : ℕ} {M : SpacetimeObj} {S : CoordinateShape} (hc : Compatible sp sh co dim d M S) (hM : M.Constructed)
    (w : World Point) (v : w.heap.Valid) (lx : w.heap.LinksExact) (h2 : M.TwoDim) (hP : M.Patch {x | x ∈ co.points})
    (hgen : ∀ x ∈ co.points, ∀ y ∈ co.points, M.causality eps x y = M.causality 0 x y)
    (hdist : ∀ (i j : ℕ) x y, co.points[i]? = some x → co.points[j]? = some y → i ≠ j → ¬ (M.Le x y ∧ M.Le y x)) :
    ∃ (C : Finset EId) (w' : World Point) (n : ℕ) (f : Fin n ≃ C) (σ : Equiv.Perm (Fin n)), embInit eps it sp sh co dim w = (.ok ⟨M, S, C⟩, w') ∧ n = co.points.length ∧
      ∀ i j, w'.heap.Lt (f i) (f j) ↔ i < j ∧ σ i < σ j := by
  have hreg : M.Region {x | x ∈ co.points} := by
    cases M with
    | base => trivial
    | deSitter d a => trivial
    | antiDeSitter d a => exact h2.elim
    | blackHole r m => exact fun x hx => (hP x hx).1
    | flat M =>
      intro x _ y _ i _ _ h
      exfalso
      revert h
      unfold FlatSpacetime.periods
      simp [h2.2]
  obtain ⟨U, V, hUV⟩ := C125_lightCones M hM h2 _ hP
  obtain ⟨ids, w', e1, e2, e3, e4, -, -, e7, e8, -⟩ := C98_embedded eps it sp sh co dim hsp hn hc hM w v lx hreg hgen hdist
  set c : EId → Point := fun e => (w'.crd e).getD 0 with hcd
  have row : ∀ a ∈ ids.toFinset, ∃ i : ℕ, ids[i]? = some a ∧ co.points[i]? = some (c a) := by
    intro a ha
    obtain ⟨i, hi, rfl⟩ := List.mem_iff_getElem.1 (List.mem_toFinset.1 ha)
    have h1 : ids[i]? = some ids[i] := List.getElem?_eq_getElem hi
    refine ⟨i, h1, ?_⟩
    have h3 : co.points[i]? = some co.points[i] := List.getElem?_eq_getElem (e3 ▸ hi)
    simp only [hcd]
    rw [e7 i _ h1, h3]
    rfl
  have mem : ∀ a ∈ ids.toFinset, c a ∈ {x | x ∈ co.points} := fun a ha => by
    obtain ⟨i, -, h⟩ := row a ha
    exact List.mem_of_getElem? h
  have hlt : ∀ a ∈ ids.toFinset, ∀ b ∈ ids.toFinset, w'.heap.Lt a b ↔ a ≠ b ∧ M.Le (c a) (c b) := by
    intro a ha b hb
    obtain ⟨i, hi, hx⟩ := row a ha
    obtain ⟨j, hj, hy⟩ := row b hb
    rw [e8 i j a b _ _ hi hj hx hy]
    refine and_congr_left fun _ => not_congr ⟨fun h => ?_, fun h => ?_⟩
    · subst h
      exact Option.some.inj (hi.symm.trans hj)
    · subst h
      have hi' := (List.getElem?_eq_some_iff.1 hi).1
      exact (List.getElem?_inj hi' e2).1 (hi.trans hj.symm)
  obtain ⟨n, f, σ, hf⟩ := permutation_of_coords ids.toFinset w'.heap.Lt (fun a => U (c a)) (fun a => V (c a))
    (fun a ha b hb => by rw [hlt a ha b hb, hUV _ (mem a ha) _ (mem b hb)])
    (fun a ha b hb h1 h2 => by
      rw [hlt a ha b hb] at h1
      rw [hlt b hb a ha] at h2
      obtain ⟨i, hi, hx⟩ := row a ha
      obtain ⟨j, hj, hy⟩ := row b hb
      refine hdist i j _ _ hx hy (fun h => h1.1 ?_) ⟨h1.2, h2.2⟩
      subst h
      exact Option.some.inj (hi.symm.trans hj))
  refine ⟨ids.toFinset, w', n, f, σ, e1, ?_, hf⟩
  have := Fintype.card_congr f
  rw [Fintype.card_fin, Fintype.card_coe, List.toFinset_card_of_nodup e2, e3] at this
  exact this

/-- **C125 is refuted for the tolerance of the library.** In two-dimensional Minkowski spacetime there are three points of which `create` makes a causal set without light-cone coordinates: its order relation is
not the product order of any two coordinates. -/
theorem C125_refuted (it : Iter) : ∃ x y z : Point,
    let r := create ((⟨2, false, none⟩ : FlatSpacetime).causality causalityEps) it ∅ [x, y, z] none true { heap := Heap.empty, crd := fun _ => none }
    r.1 = {0, 1, 2} ∧ ¬ ∃ u v : EId → ℝ, ∀ a ∈ r.1, ∀ b ∈ r.1, r.2.2.2.heap.Lt a b ↔ a ≠ b ∧ u a ≤ u b ∧ v a ≤ v b := by
  obtain ⟨x, y, z, h0, h1, h2, h3⟩ := C43_create_refuted 2 le_rfl it
  refine ⟨x, y, z, ?_⟩
  intro r
  refine ⟨h0, ?_⟩
  rintro ⟨u, v, h⟩
  have m0 : (0 : EId) ∈ r.1 := by rw [show r.1 = {0, 1, 2} from h0]; simp
  have m1 : (1 : EId) ∈ r.1 := by rw [show r.1 = {0, 1, 2} from h0]; simp
  have m2 : (2 : EId) ∈ r.1 := by rw [show r.1 = {0, 1, 2} from h0]; simp
  have a1 := (h 0 m0 1 m1).1 h1
  have a2 := (h 1 m1 2 m2).1 h2
  exact h3 ((h 0 m0 2 m2).2 ⟨by decide, a1.2.1.trans a2.2.1, a1.2.2.trans a2.2.2⟩)

/-- The hypotheses are met by two events of de Sitter spacetime and by an event inside and an event outside a black hole. -/
example : (SpacetimeObj.deSitter 2 1).Constructed ∧ (SpacetimeObj.deSitter 2 1).TwoDim ∧ (SpacetimeObj.deSitter 2 1).Patch {x | x ∈ [lineP 0 0, lineP 1 (1 / 2)]} ∧
    (SpacetimeObj.blackHole 1 .schwarzschild).Constructed ∧ (SpacetimeObj.blackHole 1 .schwarzschild).TwoDim ∧ (SpacetimeObj.blackHole 1 .schwarzschild).Patch {x | x ∈ [lineP 0 2, lineP 1 (1 / 2)]} := by
  refine ⟨⟨2, by simp [dSInit, test]⟩, rfl, ?_, ⟨2, by simp [bhInit, test]⟩, trivial, ?_⟩
  · intro x hx
    simp only [List.mem_cons, List.not_mem_nil, or_false, Set.mem_setOf_eq] at hx
    rcases hx with rfl | rfl <;> norm_num [lineP, abs_of_pos]
  · intro x hx
    simp only [List.mem_cons, List.not_mem_nil, or_false, Set.mem_setOf_eq] at hx
    refine ⟨by rcases hx with rfl | rfl <;> norm_num [lineP, abs_of_pos], fun y hy => ?_⟩
    simp only [List.mem_cons, List.not_mem_nil, or_false, Set.mem_setOf_eq] at hy
    rcases hx with rfl | rfl <;> rcases hy with rfl | rfl <;> norm_num [lineP]

end Causets
