import Verif.Props.Float32CurvedExact

/-! # C120 — the numbers for de Sitter spacetime in single precision, directions, and examples -/

namespace Causets

variable {A : NpArith}

theorem curvedErr32_numbers {n H s : ℝ} (hn : 0 ≤ n) (hn3 : n ≤ 3) (hH : 1 ≤ H) (hH1 : H ≤ 155 / 100) (hs : 86 / 100 ≤ s) :
    curvedErrD n 1 ≤ 97 ∧ curvedErrX32 n 1 H 1 s ≤ 560 ∧ curvedErr32 n 1 H 1 s ≤ 8350 := by
  have d : curvedErrD n 1 ≤ 97 := by unfold curvedErrD; nlinarith
  have d0 : 0 ≤ curvedErrD n 1 := by unfold curvedErrD; positivity
  have ds : curvedErrD n 1 / s ≤ 113 := by rw [div_le_iff₀ (by linarith)]; nlinarith
  have ds0 : 0 ≤ curvedErrD n 1 / s := div_nonneg d0 (by linarith)
  have X : curvedErrX32 n 1 H 1 s ≤ 560 := by unfold curvedErrX32 curvedErrX; nlinarith
  have X0 : 0 ≤ curvedErrX32 n 1 H 1 s := by unfold curvedErrX32 curvedErrX; positivity
  refine ⟨d, X, ?_⟩
  unfold curvedErr32 curvedErr
  unfold curvedErrX32 at X X0
  have e1 : (4 * 1 * H + 1) * curvedErrX n 1 H (6 * 1 + 5) s ≤ (4 * 1 * (155 / 100) + 1) * 560 := mul_le_mul (by linarith) X X0 (by norm_num)
  generalize curvedErrX n 1 H (6 * 1 + 5) s = Z at *
  have e2 : (2 * 1 * H + 1) ^ 2 ≤ (2 * 1 * (155 / 100) + 1) ^ 2 := pow_le_pow_left₀ (by linarith) (by linarith) 2
  have e3 : (1 * H) ^ 2 ≤ (155 / 100) ^ 2 := pow_le_pow_left₀ (by linarith) (by linarith) 2
  have e4 : (4 * n + 6) * (4 * 1 ^ 2 + n + 1) ≤ 18 * 8 := mul_le_mul (by linarith) (by linarith) (by linarith) (by norm_num)
  linarith

/-- **C120, the numbers for de Sitter spacetime.** In de Sitter spacetime of radius 1 and at most four dimensions with `float32` coordinates and the tolerance of the code (`1e-12`, rounded to
binary64), for all points with `|t| ≤ 1` and `r ≤ 1/2`: every pair with an interval of at least `5e-4` gets an answer, with the right direction if the embedding times differ by at least
`3.4e-5`; and an answer means that the pair is causal up to `5e-4`. -/
theorem C120_deSitter_numbers (hA : A.Accurate) (lib : MathLib) (hl : lib.Accurate) (dim : ℕ) (hdim : 1 ≤ dim) (hd4 : dim ≤ 4) (alphaSq : ℝ) (ha2 : |alphaSq - 1| ≤ 4 * ulp) (x y : Point)
    (hx : ∑ i ∈ Finset.Ico 1 dim, (x i) ^ 2 ≤ 1 / 4 ∧ |x 0| ≤ 1) (hy : ∑ i ∈ Finset.Ico 1 dim, (y i) ^ 2 ≤ 1 / 4 ∧ |y 0| ≤ 1) :
    let c := A.causalityDS32 lib (A.r64 causalityEps) dim 1 alphaSq x y
    let dt := dSEmbed dim 1 y 0 - dSEmbed dim 1 x 0
    let I := dt ^ 2 - spaceSq (dim + 1) (dSEmbed dim 1 x) (dSEmbed dim 1 y)
    (5 / 10 ^ 4 ≤ I → c.1 = true ∨ c.2 = true) ∧ (5 / 10 ^ 4 ≤ I → 34 / 10 ^ 6 ≤ dt → c.1 = true) ∧ (5 / 10 ^ 4 ≤ I → dt ≤ -(34 / 10 ^ 6) → c.2 = true) ∧
    (c.1 = true → -(34 / 10 ^ 6) ≤ dt ∧ -(5 / 10 ^ 4) ≤ I) ∧ (c.2 = true → dt ≤ 34 / 10 ^ 6 ∧ -(5 / 10 ^ 4) ≤ I) := by
  intro c dt I
  obtain ⟨b1, b2⟩ := eps_bounds (rnd := A.r64) ⟨hA.r64.mem, hA.r64.nearest, hA.r64.odd⟩
  have hn : (0 : ℝ) ≤ ((dim - 1 : ℕ) : ℝ) := Nat.cast_nonneg _
  have hn3 : ((dim - 1 : ℕ) : ℝ) ≤ 3 := by exact_mod_cast (by omega : dim - 1 ≤ 3)
  have hs : (86 / 100 : ℝ) ≤ Real.sqrt (3 / 4) := Real.le_sqrt_of_sq_le (by norm_num)
  have hss : Real.sqrt (3 / 4) ^ 2 = 3 / 4 := Real.sq_sqrt (by norm_num)
  obtain ⟨n1, n2, n3⟩ := curvedErr32_numbers hn hn3 (H := 155 / 100) (by norm_num) le_rfl hs
  have hc : ∀ z : ℝ, |z| ≤ 1 → Real.cosh (z / 1) ≤ 155 / 100 := fun z hz => by
    rw [div_one]
    refine le_trans ?_ cosh_one_le
    rw [Real.cosh_le_cosh, abs_one]; exact hz
  have := C120_deSitter hA lib hl (A.r64 causalityEps) (by linarith) (by linarith) dim hdim 1 alphaSq one_pos (by rw [one_pow]; linarith) 1 (155 / 100) 1 (Real.sqrt (3 / 4)) le_rfl le_rfl
    (by linarith) x y ⟨by rw [hss]; linarith [hx.1], by rw [div_one]; exact hx.2, hc _ hx.2⟩ ⟨by rw [hss]; linarith [hy.1], by rw [div_one]; exact hy.2, hc _ hy.2⟩
    (by rw [hss]; have : curvedErrD ((dim - 1 : ℕ) : ℝ) 1 / 2 ^ 24 ≤ 97 / 2 ^ 24 := div_le_div_of_nonneg_right n1 (by norm_num)
        exact this.trans (by norm_num))
    (by have : curvedErr32 ((dim - 1 : ℕ) : ℝ) 1 (155 / 100) 1 (Real.sqrt (3 / 4)) / 2 ^ 24 ≤ 8350 / 2 ^ 24 := div_le_div_of_nonneg_right n3 (by norm_num)
        exact this.trans (by norm_num))
  have g1 : curvedErrX32 ((dim - 1 : ℕ) : ℝ) 1 (155 / 100) 1 (Real.sqrt (3 / 4)) / 2 ^ 24 ≤ 336 / 10 ^ 7 :=
    (div_le_div_of_nonneg_right n2 (by norm_num)).trans (by norm_num)
  have g2 : curvedErr32 ((dim - 1 : ℕ) : ℝ) 1 (155 / 100) 1 (Real.sqrt (3 / 4)) / 2 ^ 24 ≤ 499 / 10 ^ 6 :=
    (div_le_div_of_nonneg_right n3 (by norm_num)).trans (by norm_num)
  obtain ⟨a1, a2, a3, a4, a5, _⟩ := this
  refine ⟨fun h => a3 (le_trans (by linarith) h), fun h h' => a4 (le_trans (by linarith) h) (by linarith), fun h h' => a5 (le_trans (by linarith) h) (by linarith),
    fun h => ?_, fun h => ?_⟩
  · obtain ⟨z1, z2⟩ := a1 h
    exact ⟨by linarith, by linarith⟩
  · obtain ⟨z1, z2⟩ := a2 h
    exact ⟨by linarith, by linarith⟩

/-- the hypotheses of `C120_deSitter_numbers` are met: the origin precedes a later point of a two-dimensional de Sitter spacetime -/
example (np2 : Bool) : ((npIEEE np2).causalityDS32 (exactLib rnd64) ((npIEEE np2).r64 causalityEps) 2 1 1 (lineP 0 0) (lineP 1 0)).1 = true := by
  have h : dSEmbed 2 1 (lineP 1 0) 0 - dSEmbed 2 1 (lineP 0 0) 0 = Real.sinh 1 := by simp [dSEmbed, lineP]
  have hs : (1 : ℝ) ≤ Real.sinh 1 := Real.self_le_sinh_iff.2 (by norm_num)
  refine (C120_deSitter_numbers (C119_ieee np2) _ (exactLib_accurate C104_ieee) 2 (by norm_num) (by norm_num) 1 (by simp [ulp_pos.le]) (lineP 0 0) (lineP 1 0)
    (by simp [lineP]) (by simp [lineP])).2.1 ?_ ?_
  · rw [h]
    have : spaceSq (2 + 1) (dSEmbed 2 1 (lineP 0 0)) (dSEmbed 2 1 (lineP 1 0)) = (Real.cosh 1 - 1) ^ 2 := by
      simp [spaceSq, dSEmbed, lineP, Finset.sum_Ico_succ_top]
    rw [this]
    have h2 := Real.cosh_sq 1
    have h3 : 14 / 10 ≤ Real.cosh 1 := by nlinarith [Real.one_le_cosh 1]
    nlinarith
  · rw [h]; linarith

/-- the hypotheses of `C120_antiDeSitter` are met in two dimensions for `alpha = 1`, `r ≤ 1`, `|t| ≤ 3` -/
example : curvedErrD (2 - 1 : ℕ) (3 / 2) / 2 ^ 24 ≤ (1 : ℝ) ^ 2 / 2 ∧ curvedErr32 (2 - 1 : ℕ) (3 / 2) 1 3 1 / 2 ^ 24 ≤ 1 := by
  unfold curvedErr32 curvedErr curvedErrX curvedErrD
  norm_num

/-- the points of the example of `C120_exact`: two events at the origin of space, at the times 0 and 1 -/
theorem clearDS32_example : ClearDS32 2 1 (rnd64 causalityEps) (155 / 100) 1 (Real.sqrt (3 / 4)) (curvedErr32 (2 - 1 : ℕ) 1 (155 / 100) 1 (Real.sqrt (3 / 4)) / 2 ^ 24) {lineP 0 0, lineP 1 0} := by
  have hs : (86 / 100 : ℝ) ≤ Real.sqrt (3 / 4) := Real.le_sqrt_of_sq_le (by norm_num)
  have hss : Real.sqrt (3 / 4) ^ 2 = 3 / 4 := Real.sq_sqrt (by norm_num)
  obtain ⟨n1, n2, n3⟩ := curvedErr32_numbers (n := ((2 - 1 : ℕ) : ℝ)) (by norm_num) (by norm_num) (H := 155 / 100) (by norm_num) le_rfl hs
  have g2 : curvedErr32 ((2 - 1 : ℕ) : ℝ) 1 (155 / 100) 1 (Real.sqrt (3 / 4)) / 2 ^ 24 ≤ 5 / 10 ^ 4 :=
    (div_le_div_of_nonneg_right n3 (by norm_num)).trans (by norm_num)
  have hi : 1 / 10 ≤ Real.sinh 1 ^ 2 - (Real.cosh 1 - 1) ^ 2 := by
    have h2 := Real.cosh_sq 1
    have h4 : (1 : ℝ) ≤ Real.sinh 1 := Real.self_le_sinh_iff.2 (by norm_num)
    have h3 : 14 / 10 ≤ Real.cosh 1 := by nlinarith [Real.one_le_cosh 1]
    nlinarith
  have i01 : dSInterval 2 1 (lineP 0 0) (lineP 1 0) = Real.sinh 1 ^ 2 - (Real.cosh 1 - 1) ^ 2 := by
    simp [dSInterval, spaceSq, dSEmbed, lineP, Finset.sum_Ico_succ_top]
  have i10 : dSInterval 2 1 (lineP 1 0) (lineP 0 0) = Real.sinh 1 ^ 2 - (Real.cosh 1 - 1) ^ 2 := by
    simp [dSInterval, spaceSq, dSEmbed, lineP, Finset.sum_Ico_succ_top]
    ring
  generalize Real.sqrt (3 / 4) = s at *
  constructor
  · rintro x (rfl | rfl)
    · simp [lineP, hss]; norm_num
    · simp [lineP, hss, cosh_one_le]; norm_num
  · rintro x (rfl | rfl) y (rfl | rfl)
    · left; simp
    · right; left; rw [i01]; linarith
    · right; left; rw [i10]; linarith
    · left; simp

/-- the hypotheses of `C120_exact` are met: two events of a two-dimensional de Sitter spacetime -/
example (np2 : Bool) : IsCausalOrder ((npIEEE np2).causalityDS32 (exactLib rnd64) (rnd64 causalityEps) 2 1 1) {lineP 0 0, lineP 1 0} := by
  have hs : (86 / 100 : ℝ) ≤ Real.sqrt (3 / 4) := Real.le_sqrt_of_sq_le (by norm_num)
  have hss : Real.sqrt (3 / 4) ^ 2 = 3 / 4 := Real.sq_sqrt (by norm_num)
  obtain ⟨b1, b2⟩ := eps_bounds C104_ieee
  obtain ⟨n1, n2, n3⟩ := curvedErr32_numbers (n := ((2 - 1 : ℕ) : ℝ)) (by norm_num) (by norm_num) (H := 155 / 100) (by norm_num) le_rfl hs
  exact (C120_exact (C119_ieee np2) _ (exactLib_accurate C104_ieee) (rnd64 causalityEps) (by linarith) (by linarith) 2 le_rfl 1 1 one_pos (by simp [ulp_pos.le]) 1 (155 / 100) 1 (Real.sqrt (3 / 4))
    le_rfl (by norm_num) (by linarith) (by rw [hss]; exact (div_le_div_of_nonneg_right n1 (by norm_num)).trans (by norm_num))
    ((div_le_div_of_nonneg_right n3 (by norm_num)).trans (by norm_num)) _ clearDS32_example).2

theorem one_direction (b c : Bool) : ¬ ((if b = true then (false, c) else (c, false)).1 = true ∧ (if b = true then (false, c) else (c, false)).2 = true) := by
  cases b <;> simp

/-- **C120, directions.** For every arithmetic, mathematical library and pair of points the causality functions of de Sitter, anti-de Sitter and black hole spacetimes never claim both directions
for `float32` coordinates. -/
theorem C120_directions (A : NpArith) (lib : MathLib) (log : ℝ → ℝ) (metric : BHMetric) (eps : ℝ) (dim : ℕ) (alpha alphaSq rS : ℝ) (x y : Point) :
    ¬ ((A.causalityDS32 lib eps dim alpha alphaSq x y).1 = true ∧ (A.causalityDS32 lib eps dim alpha alphaSq x y).2 = true) ∧
    ¬ ((A.causalityAdS32 lib eps dim alpha alphaSq x y).1 = true ∧ (A.causalityAdS32 lib eps dim alpha alphaSq x y).2 = true) ∧
    ¬ ((A.causalityBH32 log metric rS x y).1 = true ∧ (A.causalityBH32 log metric rS x y).2 = true) := by
  refine ⟨?_, ?_, ?_⟩
  · unfold NpArith.causalityDS32
    dsimp only
    split
    · simp
    · simp only [test, Bool.and_eq_true, decide_eq_true_eq]
      rintro ⟨⟨h1, -⟩, ⟨h2, -⟩⟩
      exact absurd h2 (not_lt.2 h1)
  · unfold NpArith.causalityAdS32
    simp only [test, Bool.and_eq_true, decide_eq_true_eq]
    rintro ⟨⟨h1, -⟩, ⟨h2, -⟩⟩
    exact absurd h2 (not_lt.2 h1)
  · unfold NpArith.causalityBH32
    dsimp only
    split
    · simp
    · exact one_direction _ _

end Causets
