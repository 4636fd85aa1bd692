import Verif.Props.FloatRound
import Verif.Props.Flat
import Verif.Props.Curved
import Verif.Props.CreateOrder

/-! # C104 — the causality functions in floating point arithmetic -/

namespace Causets

variable {rnd : ℝ → ℝ}

/-! ## directions -/

theorem flSpaceSq_symm (hr : IsRounding rnd) (dim : ℕ) (x y : Point) : flSpaceSq rnd dim y x = flSpaceSq rnd dim x y := by
  unfold flSpaceSq
  congr 1
  refine List.map_congr_left fun i _ => ?_
  rw [hr.sub_comm (x i), neg_sq]

theorem periodicDeltaFl_symm (hr : IsRounding rnd) (p a b : ℝ) : periodicDeltaFl rnd p (a - b) = periodicDeltaFl rnd p (b - a) := by
  unfold periodicDeltaFl
  rw [hr.sub_comm a b, abs_neg]

/-- all flat causality functions have this form -/
theorem flat_formFl (hr : IsRounding rnd) (sq : ℝ → ℝ) (eps : ℝ) (M : FlatSpacetime) :
    ∃ causal : Point → Point → Prop, (∀ x y, causal x y → causal y x) ∧
      ∀ x y, M.causalityFl rnd sq eps x y = (test (rnd (y 0 - x 0) ≥ 0) && test (causal x y), test (rnd (y 0 - x 0) < 0) && test (causal x y)) := by
  unfold FlatSpacetime.causalityFl
  split
  · exact ⟨fun _ _ => True, fun _ _ => id, fun x y => by simp [causalityBaseFl]⟩
  · split
    · split
      · refine ⟨fun x y => |rnd (y 0 - x 0)| ≥ rnd (|rnd (y 1 - x 1)| - eps), fun x y h => ?_, fun x y => rfl⟩
        dsimp only at h ⊢
        rw [hr.sub_comm (x 0), hr.sub_comm (x 1), abs_neg, abs_neg]; exact h
      · refine ⟨fun x y => rnd (rnd (y 0 - x 0) ^ 2) ≥ rnd (flSpaceSq rnd M.dim x y - eps), fun x y h => ?_, fun x y => rfl⟩
        dsimp only at h ⊢
        rw [hr.sub_comm (x 0), neg_sq, flSpaceSq_symm hr]; exact h
    · dsimp only
      split
      · refine ⟨fun x y => |rnd (y 0 - x 0)| ≥ rnd (|periodicDeltaFl rnd ((M.period.getD []).getD 0 0) (y 1 - x 1)| - eps), fun x y h => ?_, fun x y => rfl⟩
        dsimp only at h ⊢
        rw [hr.sub_comm (x 0), abs_neg, periodicDeltaFl_symm hr]; exact h
      · refine ⟨fun x y => rnd (rnd (y 0 - x 0) ^ 2) ≥ rnd (flSum rnd ((List.range' 1 (M.dim - 1)).map fun i =>
          sq (periodicDeltaFl rnd ((M.period.getD []).getD (i - 1) 0) (y i - x i))) - eps), fun x y h => ?_, fun x y => rfl⟩
        have e : ((List.range' 1 (M.dim - 1)).map fun i => sq (periodicDeltaFl rnd ((M.period.getD []).getD (i - 1) 0) (x i - y i))) =
            (List.range' 1 (M.dim - 1)).map fun i => sq (periodicDeltaFl rnd ((M.period.getD []).getD (i - 1) 0) (y i - x i)) :=
          List.map_congr_left fun i _ => by rw [periodicDeltaFl_symm hr]
        dsimp only at h ⊢
        rw [hr.sub_comm (x 0), neg_sq, e]; exact h

/-- **C104, directions in flat spacetime.** With rounding after every operation, for every flat spacetime (any dimension, any periods), every tolerance and every two points
whose times are binary64 numbers: never both directions; the second answer means "the second point precedes the first, and not conversely"; the answers respect the order of the
times, without rounding error; for different times swapping the points swaps the answers. -/
theorem C104_directions (hr : IsRounding rnd) (sq : ℝ → ℝ) (eps : ℝ) (M : FlatSpacetime) (x y : Point) (hx : x 0 ∈ Binary64) (hy : y 0 ∈ Binary64) :
    let c := M.causalityFl rnd sq eps
    ¬ ((c x y).1 = true ∧ (c x y).2 = true) ∧ ((c x y).2 = true ↔ (c y x).1 = true ∧ (c x y).1 = false) ∧
    ((c x y).1 = true → x 0 ≤ y 0) ∧ ((c x y).2 = true → y 0 < x 0) ∧ (x 0 ≠ y 0 → c y x = ((c x y).2, (c x y).1)) := by
  intro c
  obtain ⟨causal, hs, hf⟩ := flat_formFl hr sq eps M
  obtain ⟨h1, h2⟩ := directions_of_form (fun x y => hr.sub_comm (x 0) (y 0)) hs hf x y
  have k1 : (c x y).1 = true → x 0 ≤ y 0 := by
    intro h
    simp only [c, hf x y, test, Bool.and_eq_true, decide_eq_true_eq] at h
    exact (hr.sub_nonneg_iff hx hy).1 h.1
  have k2 : (c x y).2 = true → y 0 < x 0 := by
    intro h
    simp only [c, hf x y, test, Bool.and_eq_true, decide_eq_true_eq] at h
    by_contra hc
    exact absurd ((hr.sub_nonneg_iff hx hy).2 (not_lt.1 hc)) (not_le.2 h.1)
  refine ⟨h1, h2, k1, k2, fun hne => ?_⟩
  have hs' : causal x y ↔ causal y x := ⟨hs x y, hs y x⟩
  have e1 : rnd (y 0 - x 0) ≥ 0 ↔ rnd (x 0 - y 0) < 0 := by
    rw [ge_iff_le, hr.sub_nonneg_iff hx hy, ← not_le, hr.sub_nonneg_iff hy hx, not_le]
    exact ⟨fun h => lt_of_le_of_ne h hne, le_of_lt⟩
  have e2 : rnd (y 0 - x 0) < 0 ↔ rnd (x 0 - y 0) ≥ 0 := by
    rw [← not_iff_not, not_lt, ge_iff_le, not_le]; exact e1
  have f1 : test (causal y x) = test (causal x y) := decide_eq_decide.2 hs'.symm
  have f2 : test (rnd (x 0 - y 0) < 0) = test (rnd (y 0 - x 0) ≥ 0) := decide_eq_decide.2 e1.symm
  have f3 : test (rnd (x 0 - y 0) ≥ 0) = test (rnd (y 0 - x 0) < 0) := decide_eq_decide.2 e2.symm
  simp only [c]
  rw [hf x y, hf y x, f1, f2, f3]

/-- **C104, directions in de Sitter and anti-de Sitter spacetime.** With rounding after every operation and arbitrary functions of the mathematical library (of which only `**2` has to
be even): never both directions, and the second answer means "the second point precedes the first, and not conversely". -/
theorem C104_curved (hr : IsRounding rnd) (lib : MathLib) (hsq : ∀ z, lib.sq (-z) = lib.sq z) (eps : ℝ) (dim : ℕ) (alpha alphaSq : ℝ) (x y : Point) :
    (∀ c ∈ [causalityDSFl rnd lib eps dim alpha alphaSq, causalityAdSFl rnd lib eps dim alpha alphaSq],
      ¬ ((c x y).1 = true ∧ (c x y).2 = true) ∧ ((c x y).2 = true ↔ (c y x).1 = true ∧ (c x y).1 = false)) := by
  intro c hc
  simp only [List.mem_cons, List.not_mem_nil, or_false] at hc
  rcases hc with rfl | rfl
  · refine directions_of_form
      (d := fun x y => rnd (rnd (lib.sqrt (rnd (alphaSq - flNormSq rnd dim y)) * lib.sinh (rnd (y 0 / alpha))) -
        rnd (lib.sqrt (rnd (alphaSq - flNormSq rnd dim x)) * lib.sinh (rnd (x 0 / alpha)))))
      (causal := fun x y => (flNormSq rnd dim x < alphaSq ∧ flNormSq rnd dim y < alphaSq) ∧
        lib.sq (rnd (rnd (lib.sqrt (rnd (alphaSq - flNormSq rnd dim y)) * lib.sinh (rnd (y 0 / alpha))) -
        rnd (lib.sqrt (rnd (alphaSq - flNormSq rnd dim x)) * lib.sinh (rnd (x 0 / alpha))))) ≥
        rnd (rnd (flSpaceSq rnd dim x y + lib.sq (rnd (rnd (lib.sqrt (rnd (alphaSq - flNormSq rnd dim y)) * lib.cosh (rnd (y 0 / alpha))) -
        rnd (lib.sqrt (rnd (alphaSq - flNormSq rnd dim x)) * lib.cosh (rnd (x 0 / alpha)))))) - eps)) ?_ ?_ ?_ x y
    · intro x y; exact hr.sub_comm _ _
    · rintro x y ⟨⟨a, b⟩, h⟩
      refine ⟨⟨b, a⟩, ?_⟩
      rw [hr.sub_comm (rnd (lib.sqrt (rnd (alphaSq - flNormSq rnd dim x)) * lib.sinh _)), hsq, flSpaceSq_symm hr,
        hr.sub_comm (rnd (lib.sqrt (rnd (alphaSq - flNormSq rnd dim x)) * lib.cosh _)), hsq]
      exact h
    · intro x y
      unfold causalityDSFl
      dsimp only
      by_cases h : flNormSq rnd dim x < alphaSq ∧ flNormSq rnd dim y < alphaSq
      · have : (test (flNormSq rnd dim x ≥ alphaSq) || test (flNormSq rnd dim y ≥ alphaSq)) = false := by
          simp [test, h.1, h.2]
        rw [this]
        simp only [Bool.false_eq_true, if_false]
        rw [show (flNormSq rnd dim x < alphaSq ∧ flNormSq rnd dim y < alphaSq) = True from propext ⟨fun _ => trivial, fun _ => h⟩]
        simp only [true_and]
      · have : (test (flNormSq rnd dim x ≥ alphaSq) || test (flNormSq rnd dim y ≥ alphaSq)) = true := by
          simp only [test, Bool.or_eq_true, decide_eq_true_eq]
          by_contra hc
          push Not at hc
          exact h hc
        rw [this]
        simp only [if_true, h, false_and]
        simp [test]
  · refine directions_of_form
      (d := fun x y => rnd (rnd (lib.sqrt (rnd (alphaSq + flNormSq rnd dim y)) * lib.sin (rnd (y 0 / alpha))) -
        rnd (lib.sqrt (rnd (alphaSq + flNormSq rnd dim x)) * lib.sin (rnd (x 0 / alpha)))))
      (causal := fun x y => rnd (lib.sq (rnd (rnd (lib.sqrt (rnd (alphaSq + flNormSq rnd dim y)) * lib.sin (rnd (y 0 / alpha))) -
        rnd (lib.sqrt (rnd (alphaSq + flNormSq rnd dim x)) * lib.sin (rnd (x 0 / alpha))))) +
        lib.sq (rnd (rnd (lib.sqrt (rnd (alphaSq + flNormSq rnd dim y)) * lib.cos (rnd (y 0 / alpha))) -
        rnd (lib.sqrt (rnd (alphaSq + flNormSq rnd dim x)) * lib.cos (rnd (x 0 / alpha)))))) ≥ rnd (flSpaceSq rnd dim x y - eps)) ?_ ?_ ?_ x y
    · intro x y; exact hr.sub_comm _ _
    · intro x y h
      rw [hr.sub_comm (rnd (lib.sqrt (rnd (alphaSq + flNormSq rnd dim x)) * lib.sin _)), hsq, flSpaceSq_symm hr,
        hr.sub_comm (rnd (lib.sqrt (rnd (alphaSq + flNormSq rnd dim x)) * lib.cos _)), hsq]
      exact h
    · intro x y; rfl

/-! ## two dimensions: no causal pair is lost -/

/-- **C104, two dimensions.** In two-dimensional Minkowski spacetime rounding never loses a causal relation: for every two points (of any size) with binary64 times and every tolerance
`eps ≥ 0`, if the first is in the past of the second (exactly), the answer is "first precedes second". -/
theorem C104_2D (hr : IsRounding rnd) (sq : ℝ → ℝ) (eps : ℝ) (he : 0 ≤ eps) (M : FlatSpacetime) (hd : M.dim = 2) (hp : M.isPeriodic = false) (x y : Point)
    (h : MinkLe 2 x y) : (M.causalityFl rnd sq eps x y).1 = true := by
  rw [minkLe_iff] at h
  have h1 : |y 1 - x 1| ≤ |y 0 - x 0| := by
    rw [← sq_le_sq]
    have := h.2
    simpa [spaceSq] using this
  unfold FlatSpacetime.causalityFl
  rw [if_neg (by omega)]
  simp only [hp, Bool.not_false, if_true, hd, causalityFlat2DFl, test, Bool.and_eq_true, decide_eq_true_eq]
  refine ⟨hr.nonneg h.1, ?_⟩
  rw [hr.abs, hr.abs]
  calc rnd (rnd |y 1 - x 1| - eps) ≤ rnd (rnd |y 1 - x 1|) := hr.mono (by linarith)
    _ = rnd |y 1 - x 1| := hr.fix (hr.mem _)
    _ ≤ rnd |y 0 - x 0| := hr.mono h1

/-! ## the errors of squares and sums -/

theorem ulp_small : ulp ≤ 1 / 1000000 := by unfold ulp; norm_num

theorem sq_near (a b u s : ℝ) (hu0 : 0 ≤ u) (hu : u ≤ 1 / 1000000) (h : |a - b| ≤ u * (|b| + 1)) (hs : s = b ^ 2 + 1) : |a ^ 2 - b ^ 2| ≤ 4 * u * s := by
  have e : a ^ 2 - b ^ 2 = (a - b) * (2 * b + (a - b)) := by ring
  rw [e, abs_mul]
  have h0 := abs_nonneg b
  have hb : b ^ 2 = |b| ^ 2 := (sq_abs b).symm
  have h2 : |2 * b + (a - b)| ≤ 2 * |b| + u * (|b| + 1) := by
    refine (abs_add_le _ _).trans ?_
    rw [abs_mul, abs_two]; linarith
  calc |a - b| * |2 * b + (a - b)| ≤ (u * (|b| + 1)) * (2 * |b| + u * (|b| + 1)) := mul_le_mul h h2 (abs_nonneg _) (by positivity)
    _ ≤ 4 * u * s := by
      rw [hs, hb]
      have : (|b| + 1) * (2 * |b| + u * (|b| + 1)) ≤ 4 * (|b| ^ 2 + 1) := by nlinarith [sq_nonneg (|b| - 1)]
      nlinarith

/-- the error of a rounded square of a rounded number -/
theorem IsRounding.sq_err (hr : IsRounding rnd) (d : ℝ) : |rnd d ^ 2 - d ^ 2| ≤ 4 * ulp * (d ^ 2 + 1) ∧ |rnd (rnd d ^ 2) - d ^ 2| ≤ 6 * ulp * (d ^ 2 + 1) := by
  have h1 := sq_near (rnd d) d ulp _ ulp_pos.le ulp_small (hr.err' d) rfl
  refine ⟨h1, ?_⟩
  have h2 := hr.err' (rnd d ^ 2)
  rw [abs_of_nonneg (sq_nonneg (rnd d))] at h2
  have h3 := abs_sub_le (rnd (rnd d ^ 2)) (rnd d ^ 2) (d ^ 2)
  have h4 := (abs_le.1 h1).2
  have hu := ulp_small
  have hp := ulp_pos
  have h5 : 4 * ulp * (d ^ 2 + 1) ≤ 1 * (d ^ 2 + 1) := mul_le_mul_of_nonneg_right (by linarith) (by positivity)
  have : ulp * (rnd d ^ 2 + 1) ≤ ulp * (2 * (d ^ 2 + 1)) := mul_le_mul_of_nonneg_left (by linarith) hp.le
  linarith

/-- the error of a sum from left to right -/
theorem foldl_err (hr : IsRounding rnd) (P : ℝ) (hP : 0 ≤ P) : ∀ (l : List ℝ) (s σ : ℝ) (k : ℕ), (∀ q ∈ l, 0 ≤ q) → 0 ≤ σ → σ + l.sum ≤ P →
    ((k + l.length : ℕ) : ℝ) * (2 * ulp) ≤ 1 → |s - σ| ≤ k * (2 * ulp * (P + 1)) →
    |l.foldl (fun s q => rnd (s + q)) s - (σ + l.sum)| ≤ (k + l.length : ℕ) * (2 * ulp * (P + 1)) := by
  intro l
  induction l with
  | nil => intro s σ k _ _ _ _ h; simpa using h
  | cons q l ih =>
    intro s σ k hq hσ hs hk h
    have hq0 : 0 ≤ q := hq q List.mem_cons_self
    have hl0 : 0 ≤ l.sum := List.sum_nonneg fun a ha => hq a (List.mem_cons_of_mem _ ha)
    rw [List.sum_cons] at hs
    have hk1 : ((k + 1 : ℕ) : ℝ) * (2 * ulp) ≤ 1 := by
      refine le_trans (mul_le_mul_of_nonneg_right ?_ (by linarith [ulp_pos])) hk
      have : k + 1 ≤ k + (q :: l).length := by simp
      exact_mod_cast this
    have hu := ulp_pos
    have h1 : |rnd (s + q) - (σ + q)| ≤ ((k + 1 : ℕ) : ℝ) * (2 * ulp * (P + 1)) := by
      have e1 := hr.err' (s + q)
      have e2 := abs_sub_le (rnd (s + q)) (s + q) (σ + q)
      have e3 : |s + q - (σ + q)| = |s - σ| := by congr 1; ring
      have e4 : |s + q| ≤ P + |s - σ| := by
        have : s + q = (σ + q) + (s - σ) := by ring
        rw [this]
        refine (abs_add_le _ _).trans ?_
        rw [abs_of_nonneg (by linarith : 0 ≤ σ + q)]
        linarith
      have e5 : (k : ℝ) * (2 * ulp * (P + 1)) ≤ P + 1 := by
        push_cast at hk1
        nlinarith
      push_cast
      have e6 : ulp * (|s + q| + 1) ≤ ulp * (2 * (P + 1)) := mul_le_mul_of_nonneg_left (by linarith) hu.le
      rw [e3] at e2
      nlinarith
    have h2 := ih (rnd (s + q)) (σ + q) (k + 1) (fun a ha => hq a (List.mem_cons_of_mem _ ha)) (by linarith) (by linarith)
      (by rw [show k + 1 + l.length = k + (q :: l).length by simp; omega]; exact hk) h1
    rw [List.foldl_cons, List.sum_cons, show k + (q :: l).length = k + 1 + l.length by simp; omega, show σ + (q + l.sum) = σ + q + l.sum by ring]
    exact h2

theorem flSum_err (hr : IsRounding rnd) (l : List ℝ) (hl : ∀ q ∈ l, 0 ≤ q) (hn : (l.length : ℝ) * (2 * ulp) ≤ 1) :
    |flSum rnd l - l.sum| ≤ l.length * (2 * ulp * (l.sum + 1)) := by
  have h0 : 0 ≤ l.sum := List.sum_nonneg hl
  have := foldl_err hr l.sum h0 l 0 0 0 hl le_rfl (by simp) (by simpa using hn) (by simp)
  simpa [flSum] using this

theorem list_sum_le {f g : ℕ → ℝ} : ∀ L : List ℕ, (∀ i ∈ L, f i ≤ g i) → (L.map f).sum ≤ (L.map g).sum := by
  intro L h
  exact List.sum_le_sum h

/-- the error of a rounded sum of approximate values -/
theorem flSum_near (hr : IsRounding rnd) (L : List ℕ) (Q q B : ℕ → ℝ) (hQ : ∀ i ∈ L, 0 ≤ Q i) (hq : ∀ i ∈ L, 0 ≤ q i ∧ q i ≤ B i)
    (h : ∀ i ∈ L, |Q i - q i| ≤ 6 * ulp * B i) (hn : (L.length : ℝ) * (2 * ulp) ≤ 1) :
    |flSum rnd (L.map Q) - (L.map q).sum| ≤ (4 * L.length + 6) * ulp * (1 + (L.map B).sum) := by
  have hu := ulp_pos
  have hus := ulp_small
  have h1 := flSum_err hr (L.map Q) (fun a ha => by
    obtain ⟨i, hi, rfl⟩ := List.mem_map.1 ha; exact hQ i hi) (by simpa using hn)
  rw [List.length_map] at h1
  have key : ∀ L : List ℕ, (∀ i ∈ L, 0 ≤ q i ∧ q i ≤ B i) → (∀ i ∈ L, |Q i - q i| ≤ 6 * ulp * B i) → |(L.map Q).sum - (L.map q).sum| ≤ 6 * ulp * (L.map B).sum ∧
      (L.map q).sum ≤ (L.map B).sum ∧ 0 ≤ (L.map B).sum := by
    intro L
    induction L with
    | nil => intro _ _; simp
    | cons i L ih =>
      intro hq h
      obtain ⟨a1, a2, a3⟩ := ih (fun j hj => hq j (List.mem_cons_of_mem _ hj)) (fun j hj => h j (List.mem_cons_of_mem _ hj))
      have b1 := hq i List.mem_cons_self
      have b2 := h i List.mem_cons_self
      simp only [List.map_cons, List.sum_cons]
      refine ⟨?_, by linarith, by linarith⟩
      have : Q i + (L.map Q).sum - (q i + (L.map q).sum) = (Q i - q i) + ((L.map Q).sum - (L.map q).sum) := by ring
      rw [this]
      refine (abs_add_le _ _).trans ?_
      linarith
  obtain ⟨a1, a2, a3⟩ := key L hq h
  have h2 := abs_sub_le (flSum rnd (L.map Q)) (L.map Q).sum (L.map q).sum
  have h3 := (abs_le.1 a1).2
  have hL : (0 : ℝ) ≤ L.length := Nat.cast_nonneg _
  have h4 : (L.map Q).sum + 1 ≤ 2 * (1 + (L.map B).sum) := by nlinarith
  have h5 : (L.length : ℝ) * (2 * ulp * ((L.map Q).sum + 1)) ≤ L.length * (2 * ulp * (2 * (1 + (L.map B).sum))) :=
    mul_le_mul_of_nonneg_left (mul_le_mul_of_nonneg_left h4 (by linarith)) hL
  nlinarith

/-- comparison of the squared time with an approximate squared distance -/
theorem compare_near (hr : IsRounding rnd) (t eps S r2 R n : ℝ) (hn : 0 ≤ n) (hr0 : 0 ≤ r2) (hS : |S - r2| ≤ (4 * n + 6) * ulp * R) (hR : r2 + 1 ≤ R)
    (hK : (4 * n + 16) * ulp * R ≤ eps) (he : eps ≤ 1) :
    (r2 ≤ t ^ 2 → rnd (S - eps) ≤ rnd (rnd t ^ 2)) ∧ (rnd (S - eps) ≤ rnd (rnd t ^ 2) → r2 ≤ t ^ 2 + 2 * eps) := by
  have hu := ulp_pos
  have hus := ulp_small
  obtain ⟨s1, s2⟩ := hr.sq_err t
  have hS' := abs_le.1 hS
  have s1' := abs_le.1 s1
  have s2' := abs_le.1 s2
  have hRu : 0 ≤ ulp * R := mul_nonneg hu.le (by linarith)
  have hnR : 0 ≤ n * (ulp * R) := mul_nonneg hn hRu
  constructor
  · intro h
    refine hr.mono ?_
    have k1 : r2 - 4 * ulp * (r2 + 1) ≤ t ^ 2 - 4 * ulp * (t ^ 2 + 1) := by nlinarith
    have k2 : ulp * (r2 + 1) ≤ ulp * R := mul_le_mul_of_nonneg_left hR hu.le
    nlinarith
  · intro h
    by_cases hc : r2 ≤ t ^ 2
    · have : 0 ≤ eps := le_trans (by nlinarith) hK
      linarith
    · push Not at hc
      have k1 : ulp * (t ^ 2 + 1) ≤ ulp * R := mul_le_mul_of_nonneg_left (by linarith) hu.le
      have k2 := hr.err' (S - eps)
      have k3 : |S - eps| + 1 ≤ R + 2 := by
        have : |S - eps| ≤ |S - r2| + (r2 + eps) := by
          have : S - eps = (S - r2) + (r2 - eps) := by ring
          rw [this]
          refine (abs_add_le _ _).trans ?_
          have : |r2 - eps| ≤ r2 + eps := by
            have e0 : 0 ≤ eps := le_trans (by nlinarith) hK
            rw [abs_le]; constructor <;> linarith
          linarith
        have : |S - r2| ≤ 1 := by nlinarith
        linarith
      have k4 : ulp * (|S - eps| + 1) ≤ 3 * (ulp * R) := by
        have : R + 2 ≤ 3 * R := by linarith
        nlinarith
      have k2' := abs_le.1 k2
      nlinarith

/-- **Specification.** The size of the numbers in the test: `1 + 2 Σ (d_i² + 1)`, where `d_i` is the coordinate difference, or the period in a periodic direction. -/
noncomputable def FlatSpacetime.scale (M : FlatSpacetime) (x y : Point) : ℝ :=
  1 + ∑ i ∈ Finset.Ico 1 M.dim, 2 * ((if M.periods (i - 1) > 0 then M.periods (i - 1) else y i - x i) ^ 2 + 1)

theorem sum_Ico_list (f : ℕ → ℝ) (dim : ℕ) : ∑ i ∈ Finset.Ico 1 dim, f i = ((List.range' 1 (dim - 1)).map f).sum := by
  rw [← List.sum_toFinset _ (List.nodup_range' (step := 1))]
  refine Finset.sum_congr ?_ fun _ _ => rfl
  ext i
  simp only [Finset.mem_Ico, List.mem_toFinset, List.mem_range'_1]
  omega

/-- the error of the distance along a periodic direction -/
theorem periodicDeltaFl_err (hr : IsRounding rnd) (p d : ℝ) (hp : p > 0) (hd : |d| ≤ p) :
    |periodicDeltaFl rnd p d - periodicDelta p d| ≤ ulp * (4 * p + 3) ∧ 0 ≤ periodicDelta p d ∧ periodicDelta p d ≤ p / 2 := by
  unfold periodicDeltaFl periodicDelta
  rw [if_pos hp, if_pos hp]
  have hu := ulp_pos
  have hus := ulp_small
  have h0 := abs_nonneg d
  have h1 : |(|rnd d|) - (|d|)| ≤ ulp * (|d| + 1) := by
    rw [hr.abs]
    have := hr.err' |d|
    rwa [abs_abs] at this
  have h2 := hr.err' (p - |rnd d|)
  have h1' := abs_le.1 h1
  have h3 : |p - (|rnd d|)| ≤ p + (|d| + ulp * (|d| + 1)) := by
    rw [abs_le]
    have := abs_nonneg (rnd d)
    constructor <;> nlinarith
  have h4 : |rnd (p - (|rnd d|)) - (p - (|d|))| ≤ ulp * (4 * p + 3) := by
    have := abs_sub_le (rnd (p - |rnd d|)) (p - |rnd d|) (p - |d|)
    have e : |p - (|rnd d|) - (p - (|d|))| = |(|rnd d|) - (|d|)| := by
      rw [show p - |rnd d| - (p - |d|) = -(|rnd d| - |d|) by ring, abs_neg]
    rw [e] at this
    have k : ulp * (|p - (|rnd d|)| + 1) ≤ ulp * (p + (|d| + ulp * (|d| + 1)) + 1) := mul_le_mul_of_nonneg_left (by linarith) hu.le
    have k2 : ulp * (|d| + 1) ≤ 1 / 1000000 * (|d| + 1) := mul_le_mul_of_nonneg_right hus (by linarith)
    nlinarith
  have h5 : |(|rnd d|) - (|d|)| ≤ ulp * (4 * p + 3) := h1.trans (mul_le_mul_of_nonneg_left (by linarith) hu.le)
  refine ⟨?_, le_min h0 (by linarith), ?_⟩
  · exact (abs_min_sub_min_le_max _ _ _ _).trans (max_le h5 h4)
  · rcases le_total |d| (p / 2) with h | h
    · exact (min_le_left _ _).trans h
    · exact (min_le_right _ _).trans (by linarith)

/-- the error of its square -/
theorem periodicSq_err (hr : IsRounding rnd) (sq : ℝ → ℝ) (hsq : ∀ z, 0 ≤ sq z ∧ |sq z - z ^ 2| ≤ 2 * ulp * (z ^ 2 + 1)) (p d : ℝ) (hd : p > 0 → |d| ≤ p) :
    |sq (periodicDeltaFl rnd p d) - periodicDelta p d ^ 2| ≤ 6 * ulp * (2 * ((if p > 0 then p else d) ^ 2 + 1)) ∧
      periodicDelta p d ^ 2 ≤ 2 * ((if p > 0 then p else d) ^ 2 + 1) := by
  have hu := ulp_pos
  have hus := ulp_small
  obtain ⟨-, k⟩ := hsq (periodicDeltaFl rnd p d)
  have k2 := abs_sub_le (sq (periodicDeltaFl rnd p d)) (periodicDeltaFl rnd p d ^ 2) (periodicDelta p d ^ 2)
  by_cases hp : p > 0
  · obtain ⟨h1, h2, h3⟩ := periodicDeltaFl_err hr p d hp (hd hp)
    rw [if_pos hp]
    generalize periodicDelta p d = w at *
    generalize periodicDeltaFl rnd p d = z at *
    have e : z ^ 2 - w ^ 2 = (z - w) * (2 * w + (z - w)) := by ring
    have b1 : |2 * w + (z - w)| ≤ p + ulp * (4 * p + 3) := by
      refine (abs_add_le _ _).trans ?_
      rw [abs_of_nonneg (by linarith : 0 ≤ 2 * w)]; linarith
    have b2 : |z ^ 2 - w ^ 2| ≤ 7 * ulp * (p ^ 2 + 1) := by
      rw [e, abs_mul]
      calc |z - w| * |2 * w + (z - w)| ≤ (ulp * (4 * p + 3)) * (p + ulp * (4 * p + 3)) := mul_le_mul h1 b1 (abs_nonneg _) (by positivity)
        _ ≤ 7 * ulp * (p ^ 2 + 1) := by
          have : (4 * p + 3) * (p + ulp * (4 * p + 3)) ≤ 7 * (p ^ 2 + 1) := by
            have : ulp * (4 * p + 3) ≤ 1 / 1000000 * (4 * p + 3) := mul_le_mul_of_nonneg_right hus (by linarith)
            nlinarith [sq_nonneg (p - 1)]
          nlinarith
    have b3 : w ^ 2 ≤ p ^ 2 := by nlinarith
    refine ⟨?_, by nlinarith⟩
    have b4 := (abs_le.1 b2).2
    have b5 : z ^ 2 + 1 ≤ 2 * (p ^ 2 + 1) := by
      have : 7 * ulp * (p ^ 2 + 1) ≤ 1 * (p ^ 2 + 1) := mul_le_mul_of_nonneg_right (by linarith) (by positivity)
      nlinarith
    have b6 : 2 * ulp * (z ^ 2 + 1) ≤ 2 * ulp * (2 * (p ^ 2 + 1)) := mul_le_mul_of_nonneg_left b5 (by linarith)
    nlinarith
  · rw [if_neg hp]
    have e1 : periodicDeltaFl rnd p d = |rnd d| := by unfold periodicDeltaFl; rw [if_neg hp]
    have e2 : periodicDelta p d = |d| := by unfold periodicDelta; rw [if_neg hp]
    rw [e1, e2] at k2 ⊢
    rw [e1] at k
    rw [sq_abs, sq_abs] at k2
    rw [sq_abs] at k ⊢
    obtain ⟨s1, -⟩ := hr.sq_err d
    have b4 := (abs_le.1 s1).2
    have b5 : rnd d ^ 2 + 1 ≤ 2 * (d ^ 2 + 1) := by
      have : 4 * ulp * (d ^ 2 + 1) ≤ 1 * (d ^ 2 + 1) := mul_le_mul_of_nonneg_right (by linarith) (by positivity)
      nlinarith
    have b6 : 2 * ulp * (rnd d ^ 2 + 1) ≤ 2 * ulp * (2 * (d ^ 2 + 1)) := mul_le_mul_of_nonneg_left b5 (by linarith)
    refine ⟨by nlinarith [sq_nonneg d], by nlinarith [sq_nonneg d]⟩

/-- the comparison in two dimensions -/
theorem compare_near2 (hr : IsRounding rnd) (t eps z w R : ℝ) (hw : 0 ≤ w) (hR : 1 ≤ R) (hwR : w ≤ R) (hz : |z - w| ≤ 7 * ulp * R)
    (hK : 20 * ulp * R ≤ eps) (he : eps ≤ 1) :
    (w ≤ |t| → rnd (|z| - eps) ≤ |rnd t|) ∧ (rnd (|z| - eps) ≤ |rnd t| → w ≤ |t| + 2 * eps) := by
  have hu := ulp_pos
  have hus := ulp_small
  have hRu : ulp ≤ ulp * R := le_mul_of_one_le_right hu.le hR
  have hz2 : |(|z|) - w| ≤ 7 * ulp * R := by
    have := abs_abs_sub_abs_le z w
    rw [abs_of_nonneg hw] at this
    linarith
  have hz' := abs_le.1 hz2
  rw [hr.abs]
  constructor
  · intro h
    have h1 := hr.mono h
    have h2 := hr.err' w
    rw [abs_of_nonneg hw] at h2
    have h2' := abs_le.1 h2
    have h3 : ulp * (w + 1) ≤ 2 * (ulp * R) := by nlinarith
    have h4 : |z| - eps ≤ rnd w := by nlinarith
    calc rnd (|z| - eps) ≤ rnd (rnd w) := hr.mono h4
      _ = rnd w := hr.fix (hr.mem _)
      _ ≤ rnd |t| := h1
  · intro h
    have e0 : 0 ≤ eps := le_trans (by positivity) hK
    by_cases hc : w ≤ |t|
    · linarith
    · push Not at hc
      have h1 := abs_le.1 (hr.err' |t|)
      rw [abs_abs] at h1
      have h2 := abs_le.1 (hr.err' (|z| - eps))
      have h3 : |(|z| - eps)| + 1 ≤ R + 3 := by
        have : |(|z| - eps)| ≤ |z| + eps := by
          have := abs_nonneg z
          rw [abs_le]; constructor <;> linarith
        have : 7 * ulp * R ≤ 1 := by nlinarith
        linarith
      have h4 : ulp * (|(|z| - eps)| + 1) ≤ 4 * (ulp * R) := by
        have : R + 3 ≤ 4 * R := by linarith
        nlinarith
      have h5 : ulp * (|t| + 1) ≤ 2 * (ulp * R) := by nlinarith
      nlinarith

theorem scale_pos (M : FlatSpacetime) (x y : Point) : 1 ≤ M.scale x y := by
  unfold FlatSpacetime.scale
  have : 0 ≤ ∑ i ∈ Finset.Ico 1 M.dim, 2 * ((if M.periods (i - 1) > 0 then M.periods (i - 1) else y i - x i) ^ 2 + 1) :=
    Finset.sum_nonneg fun i _ => by positivity
  linarith

/-- **C104, accuracy in flat spacetime.** Let the tolerance be at most 1 and at least `(4 dim + 12) 2^-53` times the size of the numbers, and let `**2` have an error of at most two units.
Then for every flat spacetime of any dimension with any periods, and all points that differ by at most the periods: if the first point is in the past of the second (exactly, in Minkowski
spacetime or on the torus), the answer computed with rounding is "first precedes second"; and this answer is only given if the first point is not later and the points are at most
`2 eps` outside of the light cone (in terms of the squares, except in two dimensions). -/
theorem C104_accuracy (hr : IsRounding rnd) (sq : ℝ → ℝ) (hsq : ∀ z, 0 ≤ sq z ∧ |sq z - z ^ 2| ≤ 2 * ulp * (z ^ 2 + 1)) (eps : ℝ) (M : FlatSpacetime) (hd1 : 1 ≤ M.dim)
    (x y : Point) (hx : x 0 ∈ Binary64) (hy : y 0 ∈ Binary64) (hd : InDomain M.dim M.periods x y) (he : eps ≤ 1)
    (hK : (4 * M.dim + 12) / 2 ^ 53 * M.scale x y ≤ eps) :
    (TorusLe M.dim M.periods x y → (M.causalityFl rnd sq eps x y).1 = true) ∧
    ((M.causalityFl rnd sq eps x y).1 = true → x 0 ≤ y 0 ∧
      if M.dim = 2 then Real.sqrt (M.distSq x y) ≤ (y 0 - x 0) + 2 * eps else M.distSq x y ≤ (y 0 - x 0) ^ 2 + 2 * eps) := by
  have hu := ulp_pos
  have hus := ulp_small
  have hsc := scale_pos M x y
  have hK1 : (4 * ((M.dim - 1 : ℕ) : ℝ) + 16) * ulp * M.scale x y ≤ eps := by
    have : (4 * ((M.dim - 1 : ℕ) : ℝ) + 16) * ulp = (4 * M.dim + 12) / 2 ^ 53 := by
      rw [Nat.cast_sub hd1]; unfold ulp; push_cast; ring
    rw [this]; exact hK
  have e0 : 0 ≤ eps := le_trans (by positivity) hK
  have htime : (M.causalityFl rnd sq eps x y).1 = true → x 0 ≤ y 0 := (C104_directions hr sq eps M x y hx hy).2.2.1
  have hnn : ((M.dim - 1 : ℕ) : ℝ) * (2 * ulp) ≤ 1 := by
    have h0 : (0 : ℝ) ≤ ((M.dim - 1 : ℕ) : ℝ) := Nat.cast_nonneg _
    have : ((M.dim - 1 : ℕ) : ℝ) * (2 * ulp) ≤ (4 * ((M.dim - 1 : ℕ) : ℝ) + 16) * ulp * M.scale x y := by
      have : (4 * ((M.dim - 1 : ℕ) : ℝ) + 16) * ulp * 1 ≤ (4 * ((M.dim - 1 : ℕ) : ℝ) + 16) * ulp * M.scale x y :=
        mul_le_mul_of_nonneg_left hsc (by positivity)
      nlinarith
    linarith
  rw [torusLe_iff hd]
  have hds : ∑ i ∈ Finset.Ico 1 M.dim, (periodicDelta (M.periods (i - 1)) (y i - x i)) ^ 2 = M.distSq x y := rfl
  rw [hds]
  have hL : (List.range' 1 (M.dim - 1)).length = M.dim - 1 := List.length_range'
  have hmem : ∀ i ∈ List.range' 1 (M.dim - 1), 1 ≤ i ∧ i < M.dim := by
    intro i hi
    rw [List.mem_range'_1] at hi; omega
  have hbd : ∀ i ∈ List.range' 1 (M.dim - 1), 0 ≤ periodicDelta (M.periods (i - 1)) (y i - x i) ^ 2 ∧ periodicDelta (M.periods (i - 1)) (y i - x i) ^ 2 ≤
      2 * ((if M.periods (i - 1) > 0 then M.periods (i - 1) else y i - x i) ^ 2 + 1) := fun i hi =>
    ⟨sq_nonneg _, (periodicSq_err hr sq hsq _ _ (fun h => hd i (hmem i hi).1 (hmem i hi).2 h)).2⟩
  have hscale : M.scale x y = 1 + ((List.range' 1 (M.dim - 1)).map fun i =>
      2 * ((if M.periods (i - 1) > 0 then M.periods (i - 1) else y i - x i) ^ 2 + 1)).sum := by
    unfold FlatSpacetime.scale; rw [sum_Ico_list]
  have hdist : M.distSq x y = ((List.range' 1 (M.dim - 1)).map fun i => periodicDelta (M.periods (i - 1)) (y i - x i) ^ 2).sum := by
    unfold FlatSpacetime.distSq; rw [sum_Ico_list]
  have hR : M.distSq x y + 1 ≤ M.scale x y := by
    rw [hscale, hdist]
    have := list_sum_le (f := fun i => periodicDelta (M.periods (i - 1)) (y i - x i) ^ 2) _ (fun i hi => (hbd i hi).2)
    linarith
  have hr0 := M.distSq_nonneg x y
  -- the form of the two tests
  have nD : ∀ S : ℝ, |S - M.distSq x y| ≤ (4 * ((M.dim - 1 : ℕ) : ℝ) + 6) * ulp * M.scale x y → M.dim ≠ 2 →
      ((M.causalityFl rnd sq eps x y).1 = true ↔ 0 ≤ rnd (y 0 - x 0) ∧ rnd (S - eps) ≤ rnd (rnd (y 0 - x 0) ^ 2)) →
      (0 ≤ y 0 - x 0 ∧ M.distSq x y ≤ (y 0 - x 0) ^ 2 → (M.causalityFl rnd sq eps x y).1 = true) ∧
      ((M.causalityFl rnd sq eps x y).1 = true → x 0 ≤ y 0 ∧
        if M.dim = 2 then Real.sqrt (M.distSq x y) ≤ (y 0 - x 0) + 2 * eps else M.distSq x y ≤ (y 0 - x 0) ^ 2 + 2 * eps) := by
    intro S hS hne hc
    obtain ⟨c1, c2⟩ := compare_near hr (y 0 - x 0) eps S (M.distSq x y) (M.scale x y) _ (Nat.cast_nonneg _) hr0 hS hR hK1 he
    refine ⟨fun h => hc.2 ⟨hr.nonneg h.1, c1 h.2⟩, fun h => ⟨htime h, ?_⟩⟩
    rw [if_neg hne]
    exact c2 (hc.1 h).2
  have twoD : ∀ z w : ℝ, 0 ≤ w → w ^ 2 = M.distSq x y → |z - w| ≤ 7 * ulp * M.scale x y → M.dim = 2 →
      ((M.causalityFl rnd sq eps x y).1 = true ↔ 0 ≤ rnd (y 0 - x 0) ∧ rnd (|z| - eps) ≤ |rnd (y 0 - x 0)|) →
      (0 ≤ y 0 - x 0 ∧ M.distSq x y ≤ (y 0 - x 0) ^ 2 → (M.causalityFl rnd sq eps x y).1 = true) ∧
      ((M.causalityFl rnd sq eps x y).1 = true → x 0 ≤ y 0 ∧
        if M.dim = 2 then Real.sqrt (M.distSq x y) ≤ (y 0 - x 0) + 2 * eps else M.distSq x y ≤ (y 0 - x 0) ^ 2 + 2 * eps) := by
    intro z w hw hw2 hz h2 hc
    have hwR : w ≤ M.scale x y := by nlinarith [sq_nonneg (w - 1)]
    have hK2 : 20 * ulp * M.scale x y ≤ eps := by
      rw [h2] at hK1
      norm_num at hK1
      exact hK1
    obtain ⟨c1, c2⟩ := compare_near2 hr (y 0 - x 0) eps z w (M.scale x y) hw hsc hwR hz hK2 he
    refine ⟨fun h => hc.2 ⟨hr.nonneg h.1, c1 ?_⟩, fun h => ⟨htime h, ?_⟩⟩
    · rw [← hw2] at h
      have := sq_le_sq.1 h.2
      rwa [abs_of_nonneg hw] at this
    · rw [if_pos h2, ← hw2, Real.sqrt_sq hw]
      have := c2 (hc.1 h).2
      rwa [abs_of_nonneg (by linarith [htime h])] at this
  unfold FlatSpacetime.causalityFl at nD twoD ⊢
  by_cases h1 : M.dim = 1
  · have hd0 : M.distSq x y = 0 := by unfold FlatSpacetime.distSq; rw [h1]; simp
    simp only [h1, if_true] at htime ⊢
    refine ⟨fun h => ?_, fun h => ⟨?_, ?_⟩⟩
    · simp only [causalityBaseFl, test, decide_eq_true_eq]; exact hr.nonneg h.1
    · simp only [causalityBaseFl, test, decide_eq_true_eq] at h
      exact (hr.sub_nonneg_iff hx hy).1 h
    · rw [if_neg (by norm_num), hd0]; positivity
  · simp only [h1, if_false] at nD twoD ⊢
    by_cases hp : M.isPeriodic = true
    · have hper : ∀ i, M.periods i = (M.period.getD []).getD i 0 := fun i => by unfold FlatSpacetime.periods; rw [if_pos hp]
      simp only [hp, Bool.not_true, Bool.false_eq_true, if_false] at nD twoD ⊢
      by_cases h2 : M.dim = 2
      · simp only [if_pos h2] at nD twoD ⊢
        have hd1' : M.distSq x y = periodicDelta (M.periods 0) (y 1 - x 1) ^ 2 := by
          unfold FlatSpacetime.distSq; rw [h2]; simp
        have hin : M.periods 0 > 0 → |y 1 - x 1| ≤ M.periods 0 := fun h => hd 1 le_rfl (by omega) h
        have hsc2 : M.scale x y = 1 + 2 * ((if M.periods 0 > 0 then M.periods 0 else y 1 - x 1) ^ 2 + 1) := by
          unfold FlatSpacetime.scale; rw [h2]; simp
        refine twoD (periodicDeltaFl rnd ((M.period.getD []).getD 0 0) (y 1 - x 1)) (periodicDelta (M.periods 0) (y 1 - x 1)) (periodicDelta_nonneg hin) hd1'.symm ?_ h2 ?_
        · rw [← hper]
          by_cases hp0 : M.periods 0 > 0
          · refine (periodicDeltaFl_err hr _ _ hp0 (hin hp0)).1.trans ?_
            rw [hsc2, if_pos hp0]
            nlinarith [sq_nonneg (M.periods 0 - 1)]
          · have e1 : periodicDeltaFl rnd (M.periods 0) (y 1 - x 1) = |rnd (y 1 - x 1)| := by unfold periodicDeltaFl; rw [if_neg hp0]
            have e2 : periodicDelta (M.periods 0) (y 1 - x 1) = |y 1 - x 1| := by unfold periodicDelta; rw [if_neg hp0]
            rw [e1, e2, hsc2, if_neg hp0, hr.abs]
            have := hr.err' |y 1 - x 1|
            rw [abs_abs] at this
            refine this.trans ?_
            rw [← sq_abs (y 1 - x 1)]
            nlinarith [sq_nonneg (|y 1 - x 1| - 1), abs_nonneg (y 1 - x 1)]
        · simp only [causalityFlat2DPeriodicFl, test, Bool.and_eq_true, decide_eq_true_eq, ge_iff_le]
      · simp only [if_neg h2] at nD twoD ⊢
        refine nD (flSum rnd ((List.range' 1 (M.dim - 1)).map fun i => sq (periodicDeltaFl rnd (M.periods (i - 1)) (y i - x i)))) ?_ h2 ?_
        · rw [hscale, hdist]
          have := flSum_near hr (List.range' 1 (M.dim - 1)) (fun i => sq (periodicDeltaFl rnd (M.periods (i - 1)) (y i - x i)))
            (fun i => periodicDelta (M.periods (i - 1)) (y i - x i) ^ 2)
            (fun i => 2 * ((if M.periods (i - 1) > 0 then M.periods (i - 1) else y i - x i) ^ 2 + 1)) (fun i _ => (hsq _).1) hbd
            (fun i hi => (periodicSq_err hr sq hsq _ _ (fun h => hd i (hmem i hi).1 (hmem i hi).2 h)).1) (by rw [hL]; exact hnn)
          rw [hL] at this
          exact this
        · simp only [causalityFlatPeriodicFl, test, Bool.and_eq_true, decide_eq_true_eq, ge_iff_le, hper]
    · have hp' : M.isPeriodic = false := by simpa using hp
      have hper : ∀ i, M.periods i = 0 := fun i => by unfold FlatSpacetime.periods; rw [if_neg hp]
      have hpd : ∀ d : ℝ, periodicDelta 0 d = |d| := fun d => by unfold periodicDelta; rw [if_neg (lt_irrefl _)]
      simp only [hp', Bool.not_false, if_true] at nD twoD ⊢
      by_cases h2 : M.dim = 2
      · simp only [if_pos h2] at nD twoD ⊢
        have hd1' : M.distSq x y = |y 1 - x 1| ^ 2 := by
          unfold FlatSpacetime.distSq; rw [h2]; simp [hper, hpd]
        have hsc2 : M.scale x y = 1 + 2 * ((y 1 - x 1) ^ 2 + 1) := by
          unfold FlatSpacetime.scale; rw [h2]; simp [hper]
        refine twoD |rnd (y 1 - x 1)| |y 1 - x 1| (abs_nonneg _) hd1'.symm ?_ h2 ?_
        · rw [hsc2, hr.abs]
          have := hr.err' |y 1 - x 1|
          rw [abs_abs] at this
          refine this.trans ?_
          rw [← sq_abs (y 1 - x 1)]
          nlinarith [sq_nonneg (|y 1 - x 1| - 1), abs_nonneg (y 1 - x 1)]
        · simp only [causalityFlat2DFl, test, Bool.and_eq_true, decide_eq_true_eq, ge_iff_le, abs_abs]
      · simp only [if_neg h2] at nD twoD ⊢
        refine nD (flSpaceSq rnd M.dim x y) ?_ h2 ?_
        · rw [hscale, hdist]
          have := flSum_near hr (List.range' 1 (M.dim - 1)) (fun i => rnd (rnd (y i - x i) ^ 2))
            (fun i => periodicDelta (M.periods (i - 1)) (y i - x i) ^ 2)
            (fun i => 2 * ((if M.periods (i - 1) > 0 then M.periods (i - 1) else y i - x i) ^ 2 + 1)) (fun i _ => hr.nonneg (sq_nonneg _)) hbd
            (fun i hi => by
              rw [hper, hpd, sq_abs, if_neg (lt_irrefl _)]
              refine (hr.sq_err (y i - x i)).2.trans ?_
              nlinarith [sq_nonneg (y i - x i)]) (by rw [hL]; exact hnn)
          rw [hL] at this
          exact this
        · simp only [causalityFlatFl, test, Bool.and_eq_true, decide_eq_true_eq, ge_iff_le]

end Causets
