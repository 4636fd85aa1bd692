import Verif.Props.Float32CurvedErr

/-! # C120 — de Sitter and anti-de Sitter causality in single precision -/

namespace Causets

/-- **Specification.** The error of the compared numbers, in units of `2^-24` (`n` space dimensions, amplitudes between `s` and `A`, hyperbolic functions up to `H`, `|t / alpha|` up to `T`). -/
noncomputable def curvedErr32 (n A H T s : ℝ) : ℝ := curvedErr n A H (6 * T + 5) s + 8 * (A * H) ^ 2 + 6

/-- **Specification.** The error of the difference of the embedding times, in units of `2^-24`. -/
noncomputable def curvedErrX32 (n A H T s : ℝ) : ℝ := curvedErrX n A H (6 * T + 5) s

theorem RoundErr.weaken {rnd : ℝ → ℝ} {u w w' : ℝ} (h : RoundErr rnd u w) (hu : 0 ≤ u) (hw : w ≤ w') : RoundErr rnd u w' where
  nonneg := h.nonneg
  nonpos := h.nonpos
  mono := h.mono
  err z := (h.err z).trans (mul_le_mul_of_nonneg_left (by linarith) hu)

/-- the quotient `t / alpha` -/
theorem quot_near {mix : ℝ → ℝ} (h : RoundErr mix u32 w32) {t alpha T : ℝ} (ha : 1 / 2 ^ 20 ≤ alpha) (hT : |t / alpha| ≤ T) :
    |mix (t / mix alpha) - t / alpha| ≤ (6 * T + 5 + 1) * u32 := by
  have hu := u32_pos
  have hus := u32_small
  have ha0 : 0 < alpha := lt_of_lt_of_le (by positivity) ha
  have h1 := h.err alpha
  rw [abs_of_pos ha0] at h1
  have hw : w32 ≤ alpha := by
    refine le_trans ?_ ha
    unfold w32; norm_num
  have h2 : |mix alpha - alpha| ≤ 2 * u32 * alpha := h1.trans (by nlinarith)
  have h2' := abs_le.1 h2
  have hm : alpha / 2 ≤ mix alpha := by nlinarith
  have hm0 : 0 < mix alpha := by linarith
  have h3 : |t / mix alpha - t / alpha| ≤ 4 * u32 * T := by
    have e : t / mix alpha - t / alpha = t / alpha * ((alpha - mix alpha) / mix alpha) := by field_simp
    rw [e, abs_mul, abs_div (alpha - mix alpha), abs_of_pos hm0, abs_sub_comm]
    have h4 : |mix alpha - alpha| / mix alpha ≤ 4 * u32 := by
      rw [div_le_iff₀ hm0]
      have := mul_le_mul_of_nonneg_left hm (by linarith : 0 ≤ 4 * u32)
      linarith
    calc |t / alpha| * (|mix alpha - alpha| / mix alpha) ≤ T * (4 * u32) := mul_le_mul hT h4 (by positivity) ((abs_nonneg _).trans hT)
      _ = _ := by ring
  have hT0 : 0 ≤ T := (abs_nonneg _).trans hT
  have h5 := (h.weaken hu.le w32_le).err (t / mix alpha)
  have h6 : |t / mix alpha| ≤ 2 * T := by
    have := abs_sub_abs_le_abs_sub (t / mix alpha) (t / alpha)
    nlinarith
  have h7 := abs_sub_le (mix (t / mix alpha)) (t / mix alpha) (t / alpha)
  nlinarith

namespace NpArith.Accurate

variable {A : NpArith} (hA : A.Accurate)
include hA

theorem mixErr : RoundErr A.mix u32 w32 := hA.errT _

/-- the squared radius and the tolerance, converted -/
theorem mix_conv {c d : ℝ} (hd : 0 ≤ d) (h : |c - d| ≤ 2 * ulp * (d + 1)) : |A.mix c - d| ≤ 2 * u32 * (d + 1) := by
  have hu := u32_pos
  have h1 := ((hA.mixErr).weaken hu.le w32_le).err c
  have h2 := abs_sub_le (A.mix c) c d
  have h3 : 4 * ulp ≤ u32 := by unfold ulp u32; norm_num
  have h4 : |c| ≤ d + 2 * ulp * (d + 1) := by
    have := abs_sub_abs_le_abs_sub c d
    rw [abs_of_nonneg hd] at this
    linarith
  have h6 : 2 * ulp ≤ 1 / 1000 := by unfold ulp; norm_num
  have h5 : |c| + 1 ≤ (1 + 1 / 1000) * (d + 1) := by nlinarith
  have h7 : u32 * (|c| + 1) ≤ u32 * ((1 + 1 / 1000) * (d + 1)) := mul_le_mul_of_nonneg_left h5 hu.le
  have h8 : 2 * ulp * (d + 1) ≤ u32 / 2 * (d + 1) := mul_le_mul_of_nonneg_right (by linarith) (by linarith)
  nlinarith

end NpArith.Accurate

variable {A : NpArith}

theorem curvedErrX_hd {n a s u : ℝ} (hu : 0 < u) (hn : 0 ≤ n) (hd : curvedErrD n a * u ≤ s ^ 2 / 2) : 16 * u ≤ s ^ 2 := by
  have h1 : 8 ≤ curvedErrD n a := by unfold curvedErrD; nlinarith [sq_nonneg a, mul_nonneg hn (sq_nonneg a), mul_nonneg hn hn]
  nlinarith

set_option maxHeartbeats 2000000 in
/-- **C120, accuracy in de Sitter spacetime.** With `float32` coordinates: let the radius be at most `R`, let two points be inside the horizon (with `alpha² - r² ≥ s²`), `|t / alpha| ≤ T` and
`cosh (t / alpha) ≤ H`, let the functions of the mathematical library be accurate, and let the numbers be moderate. Then the answers are those of the embedding into Minkowski spacetime, up to the
errors `g = curvedErrX32 / 2^24` of the difference of the embedding times `dt` and `E = curvedErr32 / 2^24` of the interval `I = dt² - distance²`. Both directions are never claimed. -/
theorem C120_deSitter (hA : A.Accurate) (lib : MathLib) (hl : lib.Accurate) (eps : ℝ) (he0 : 0 ≤ eps) (he1 : eps ≤ 1) (dim : ℕ) (hdim : 1 ≤ dim) (alpha alphaSq : ℝ) (hal : 0 < alpha)
    (ha2 : |alphaSq - alpha ^ 2| ≤ 2 * ulp * (alpha ^ 2 + 1)) (R H T s : ℝ) (hR : 1 ≤ R) (hR' : alpha ^ 2 ≤ R ^ 2) (hs : 0 < s) (x y : Point)
    (hx : ∑ i ∈ Finset.Ico 1 dim, (x i) ^ 2 + s ^ 2 ≤ alpha ^ 2 ∧ |x 0 / alpha| ≤ T ∧ Real.cosh (x 0 / alpha) ≤ H)
    (hy : ∑ i ∈ Finset.Ico 1 dim, (y i) ^ 2 + s ^ 2 ≤ alpha ^ 2 ∧ |y 0 / alpha| ≤ T ∧ Real.cosh (y 0 / alpha) ≤ H)
    (hd : curvedErrD (dim - 1 : ℕ) R / 2 ^ 24 ≤ s ^ 2 / 2) (hE : curvedErr32 (dim - 1 : ℕ) R H T s / 2 ^ 24 ≤ 1) :
    let c := A.causalityDS32 lib eps dim alpha alphaSq x y
    let dt := dSEmbed dim alpha y 0 - dSEmbed dim alpha x 0
    let I := dt ^ 2 - spaceSq (dim + 1) (dSEmbed dim alpha x) (dSEmbed dim alpha y)
    let g := curvedErrX32 (dim - 1 : ℕ) R H T s / 2 ^ 24
    let E := curvedErr32 (dim - 1 : ℕ) R H T s / 2 ^ 24
    (c.1 = true → -g ≤ dt ∧ -(eps + E) ≤ I) ∧ (c.2 = true → dt ≤ g ∧ -(eps + E) ≤ I) ∧ (E - eps ≤ I → c.1 = true ∨ c.2 = true) ∧
    (E - eps ≤ I → g ≤ dt → c.1 = true) ∧ (E - eps ≤ I → dt < -g → c.2 = true) ∧ ¬ (c.1 = true ∧ c.2 = true) := by
  intro c dt I g E
  have hu := u32_pos
  have hus := u32_small
  have eu : ∀ z : ℝ, z / 2 ^ 24 = z * u32 := fun z => by unfold u32; ring
  simp only [eu] at hd hE
  have hl' : lib.AccurateTo u32 := hl.to (by unfold ulp u32; norm_num)
  have h32 := (hA.err32).weaken hu.le w32_le
  have h64 := (hA.err64).weaken hu.le w32_le
  have hm := (hA.mixErr).weaken hu.le w32_le
  have hn : (0 : ℝ) ≤ ((dim - 1 : ℕ) : ℝ) := Nat.cast_nonneg _
  set n : ℝ := ((dim - 1 : ℕ) : ℝ)
  have hH : 1 ≤ H := (Real.one_le_cosh _).trans hx.2.2
  have hT : 0 ≤ T := (abs_nonneg _).trans hx.2.1
  have hT' : 0 ≤ 6 * T + 5 := by linarith
  have hle : curvedErr n R H (6 * T + 5) s ≤ curvedErr32 n R H T s := by unfold curvedErr32; nlinarith [sq_nonneg (R * H)]
  have hE0 : curvedErr n R H (6 * T + 5) s * u32 ≤ 1 := (mul_le_mul_of_nonneg_right hle hu.le).trans hE
  obtain ⟨hn2, hX, hX0⟩ := sum_smallU hu hn hR hH hT' hs hE0
  have hAH : 1 ≤ R * H := one_le_mul_of_one_le_of_one_le hR hH
  have hs2 : 0 < s ^ 2 := by positivity
  have hals : 1 / 2 ^ 20 ≤ alpha := by
    have h1 := curvedErrX_hd hu hn hd
    have h2 : s ^ 2 ≤ alpha ^ 2 := by
      have : 0 ≤ ∑ i ∈ Finset.Ico 1 dim, (x i) ^ 2 := Finset.sum_nonneg fun i _ => sq_nonneg _
      linarith [hx.1]
    have h3 : (1 / 2 ^ 20 : ℝ) ^ 2 ≤ alpha ^ 2 := by
      refine le_trans ?_ (h1.trans h2)
      unfold u32; norm_num
    exact le_of_sq_le_sq h3 hal.le
  -- the squared amplitude
  have amp : ∀ z : Point, ∑ i ∈ Finset.Ico 1 dim, (z i) ^ 2 + s ^ 2 ≤ alpha ^ 2 → A.normSq dim z < A.mix alphaSq ∧
      |A.mix (A.mix alphaSq - A.normSq dim z) - (alpha ^ 2 - ∑ i ∈ Finset.Ico 1 dim, (z i) ^ 2)| ≤ curvedErrD n R * u32 ∧
      (s ^ 2 ≤ alpha ^ 2 - ∑ i ∈ Finset.Ico 1 dim, (z i) ^ 2 ∧ alpha ^ 2 - ∑ i ∈ Finset.Ico 1 dim, (z i) ^ 2 ≤ R ^ 2) ∧ ∑ i ∈ Finset.Ico 1 dim, (z i) ^ 2 ≤ R ^ 2 := by
    intro z hz
    have b0 : 0 ≤ ∑ i ∈ Finset.Ico 1 dim, (z i) ^ 2 := Finset.sum_nonneg fun i _ => sq_nonneg _
    have b1 : ∑ i ∈ Finset.Ico 1 dim, (z i) ^ 2 ≤ R ^ 2 := by linarith
    have b2 : |A.normSq dim z - ∑ i ∈ Finset.Ico 1 dim, (z i) ^ 2| ≤ ((4 * n + 6) * (R ^ 2 + n + 1)) * u32 := normSq_nearU hu hus h32 hm dim z b1 hn2
    have b3 : |A.mix alphaSq - alpha ^ 2| ≤ (2 * (R ^ 2 + 1)) * u32 := by
      refine (hA.mix_conv (sq_nonneg _) ha2).trans ?_
      nlinarith
    have b4 := near_subU b3 b2
    have b5 : |alpha ^ 2 - ∑ i ∈ Finset.Ico 1 dim, (z i) ^ 2| ≤ R ^ 2 := by rw [abs_of_nonneg (by linarith)]; linarith
    have b6 : (2 * (R ^ 2 + 1) + (4 * n + 6) * (R ^ 2 + n + 1)) * u32 ≤ s ^ 2 / 2 := by
      refine le_trans (mul_le_mul_of_nonneg_right ?_ hu.le) hd
      unfold curvedErrD
      nlinarith [sq_nonneg R]
    have b7 : (2 * (R ^ 2 + 1) + (4 * n + 6) * (R ^ 2 + n + 1)) * u32 ≤ 1 := by
      refine le_trans (mul_le_mul_of_nonneg_right ?_ hu.le) hE0
      unfold curvedErr
      have c1 : 0 ≤ (4 * R * H + 1) * curvedErrX n R H (6 * T + 5) s := mul_nonneg (by linarith) hX0
      have c2 : 0 ≤ (2 * R * H + 1) ^ 2 := sq_nonneg _
      have c3 : (4 * n + 6) * (R ^ 2 + n + 1) ≤ (4 * n + 6) * (4 * R ^ 2 + n + 1) := mul_le_mul_of_nonneg_left (by nlinarith) (by positivity)
      have c4 : R ^ 2 ≤ (R * H) ^ 2 := pow_le_pow_left₀ (by linarith) (le_mul_of_one_le_right (by linarith) hH) 2
      nlinarith [sq_nonneg R]
    have b8 := near_rndU hu hm b4 b5 b7
    refine ⟨?_, b8.trans (le_of_eq ?_), ⟨by linarith, by linarith⟩, b1⟩
    · have := abs_le.1 b4
      have : 0 < A.mix alphaSq - A.normSq dim z := by linarith [this.1]
      linarith
    · unfold curvedErrD; ring
  obtain ⟨hx1, hx2, hx3, hx4⟩ := amp x hx.1
  obtain ⟨hy1, hy2, hy3, hy4⟩ := amp y hy.1
  have hsc : ∀ v : ℝ, |Real.sinh v| ≤ Real.cosh v := fun v => by rw [Real.abs_sinh, ← Real.cosh_abs v]; exact (Real.sinh_lt_cosh _).le
  have hca : ∀ v : ℝ, |Real.cosh v| = Real.cosh v := fun v => abs_of_pos (Real.cosh_pos v)
  have hh : ∀ v ∈ [x 0 / alpha, y 0 / alpha], Real.cosh v ≤ H := by
    intro v hv
    simp only [List.mem_cons, List.not_mem_nil, or_false] at hv
    rcases hv with rfl | rfl
    · exact hx.2.2
    · exact hy.2.2
  have qx := quot_near hA.mixErr hals hx.2.1
  have qy := quot_near hA.mixErr hals hy.2.1
  obtain ⟨p1, p2⟩ := coord_nearU hu h64 hl' hl'.sinh hn hs hR hH hT' hx3 hy3 hx2 hy2 hd hX ⟨(hsc _).trans hx.2.2, qx⟩ ⟨(hsc _).trans hy.2.2, qy⟩
    (fun v hv u hu => sinh_lip (hh v hv) hu)
  obtain ⟨q1, q2⟩ := coord_nearU hu h64 hl' hl'.cosh hn hs hR hH hT' hx3 hy3 hx2 hy2 hd hX ⟨(hca _).le.trans hx.2.2, qx⟩ ⟨(hca _).le.trans hy.2.2, qy⟩
    (fun v hv u hu => cosh_lip (hh v hv) hu)
  have e0 : ∀ z : Point, dSEmbed dim alpha z 0 = Real.sqrt (alpha ^ 2 - ∑ i ∈ Finset.Ico 1 dim, (z i) ^ 2) * Real.sinh (z 0 / alpha) := fun z => by simp [dSEmbed]
  have e1 : ∀ z : Point, dSEmbed dim alpha z dim = Real.sqrt (alpha ^ 2 - ∑ i ∈ Finset.Ico 1 dim, (z i) ^ 2) * Real.cosh (z 0 / alpha) := fun z => by
    simp [dSEmbed, show dim ≠ 0 by omega]
  rw [← e0, ← e0] at p1 p2
  rw [← e1, ← e1] at q1 q2
  have s1 := near_sqU hu hl' p1 p2 hX
  have s2 := near_sqU hu hl' q1 q2 hX
  have s3 : |A.spaceSq dim x y - spaceSq dim x y| ≤ _ := spaceSq_nearU hu hus h32 hm dim x y hx4 hy4 hn2
  obtain ⟨s4, s5⟩ := spaceSq_bound dim x y hx4 hy4
  set X := curvedErrX n R H (6 * T + 5) s with hXd
  have sq4 : ∀ z : ℝ, |z| ≤ 2 * R * H → z ^ 2 ≤ 4 * (R * H) ^ 2 := fun z hz => by
    rw [← sq_abs]
    calc |z| ^ 2 ≤ (2 * R * H) ^ 2 := pow_le_pow_left₀ (abs_nonneg _) hz 2
      _ = 4 * (R * H) ^ 2 := by ring
  have s7 := sq4 _ q2
  have s7' := sq4 _ p2
  have s8 : R ^ 2 ≤ (R * H) ^ 2 := pow_le_pow_left₀ (by linarith) (le_mul_of_one_le_right (by linarith) hH) 2
  have s9 : 0 ≤ (dSEmbed dim alpha y dim - dSEmbed dim alpha x dim) ^ 2 := sq_nonneg _
  have s9' : 0 ≤ (dSEmbed dim alpha y 0 - dSEmbed dim alpha x 0) ^ 2 := sq_nonneg _
  have bX : 0 ≤ (4 * R * H + 1) * X := mul_nonneg (by linarith) hX0
  have b2 : 0 ≤ (2 * R * H + 1) ^ 2 := sq_nonneg _
  have bs : 0 ≤ (4 * n + 6) * (4 * R ^ 2 + n + 1) := by positivity
  have key : ∀ e, e ≤ curvedErr32 n R H T s → e * u32 ≤ 1 := fun e he => (mul_le_mul_of_nonneg_right he hu.le).trans hE
  have hsplit : curvedErr32 n R H T s = 2 * ((4 * R * H + 1) * X + 2 * (2 * R * H + 1) ^ 2 + 2) + (4 * n + 6) * (4 * R ^ 2 + n + 1) + 24 * (R * H) ^ 2 + 11 := by
    unfold curvedErr32 curvedErr; rw [hXd]; ring
  rw [show 2 * (2 * R * H) + 1 = 4 * R * H + 1 by ring] at s1 s2
  have s1r := near_rndU hu hm s1 (B := 4 * (R * H) ^ 2) (by rw [abs_of_nonneg s9']; exact s7') (key _ (by rw [hsplit]; linarith [sq_nonneg (R * H)]))
  have s2r := near_rndU hu hm s2 (B := 4 * (R * H) ^ 2) (by rw [abs_of_nonneg s9]; exact s7) (key _ (by rw [hsplit]; linarith [sq_nonneg (R * H)]))
  have s6 := near_addU s3 s2r
  have t1 := near_rndU hu hm s6 (B := 8 * (R * H) ^ 2) (by rw [abs_of_nonneg (by linarith)]; linarith) (key _ (by rw [hsplit]; linarith [sq_nonneg (R * H)]))
  have te : |A.mix eps - eps| ≤ 2 * u32 := by
    refine (hm.err eps).trans ?_
    rw [abs_of_nonneg he0]; nlinarith
  have t2 := near_subU t1 te
  have t3 := near_rndU hu hm t2 (B := 8 * (R * H) ^ 2 + 1) (by rw [abs_le]; constructor <;> linarith) (key _ (by rw [hsplit]; linarith [sq_nonneg (R * H)]))
  have t4 := near_subU s1r t3
  have hg : g = X * u32 := eu _
  have hE' : E = curvedErr32 n R H T s * u32 := eu _
  have hc : c = (test (A.r64 (A.r64 (lib.sqrt (A.mix (A.mix alphaSq - A.normSq dim y)) * lib.sinh (A.mix (y 0 / A.mix alpha))) -
        A.r64 (lib.sqrt (A.mix (A.mix alphaSq - A.normSq dim x)) * lib.sinh (A.mix (x 0 / A.mix alpha)))) ≥ 0) &&
      test (A.mix (lib.sq (A.r64 (A.r64 (lib.sqrt (A.mix (A.mix alphaSq - A.normSq dim y)) * lib.sinh (A.mix (y 0 / A.mix alpha))) -
        A.r64 (lib.sqrt (A.mix (A.mix alphaSq - A.normSq dim x)) * lib.sinh (A.mix (x 0 / A.mix alpha)))))) ≥
        A.mix (A.mix (A.spaceSq dim x y + A.mix (lib.sq (A.r64 (A.r64 (lib.sqrt (A.mix (A.mix alphaSq - A.normSq dim y)) * lib.cosh (A.mix (y 0 / A.mix alpha))) -
        A.r64 (lib.sqrt (A.mix (A.mix alphaSq - A.normSq dim x)) * lib.cosh (A.mix (x 0 / A.mix alpha))))))) - A.mix eps)),
      test (A.r64 (A.r64 (lib.sqrt (A.mix (A.mix alphaSq - A.normSq dim y)) * lib.sinh (A.mix (y 0 / A.mix alpha))) -
        A.r64 (lib.sqrt (A.mix (A.mix alphaSq - A.normSq dim x)) * lib.sinh (A.mix (x 0 / A.mix alpha)))) < 0) &&
      test (A.mix (lib.sq (A.r64 (A.r64 (lib.sqrt (A.mix (A.mix alphaSq - A.normSq dim y)) * lib.sinh (A.mix (y 0 / A.mix alpha))) -
        A.r64 (lib.sqrt (A.mix (A.mix alphaSq - A.normSq dim x)) * lib.sinh (A.mix (x 0 / A.mix alpha)))))) ≥
        A.mix (A.mix (A.spaceSq dim x y + A.mix (lib.sq (A.r64 (A.r64 (lib.sqrt (A.mix (A.mix alphaSq - A.normSq dim y)) * lib.cosh (A.mix (y 0 / A.mix alpha))) -
        A.r64 (lib.sqrt (A.mix (A.mix alphaSq - A.normSq dim x)) * lib.cosh (A.mix (x 0 / A.mix alpha))))))) - A.mix eps))) := by
    have : (test (A.normSq dim x ≥ A.mix alphaSq) || test (A.normSq dim y ≥ A.mix alphaSq)) = false := by simp [test, hx1, hy1]
    simp only [c, NpArith.causalityDS32, this, Bool.false_eq_true, if_false]
  rw [hc]
  have hI : I + eps = (dSEmbed dim alpha y 0 - dSEmbed dim alpha x 0) ^ 2 - (spaceSq dim x y + (dSEmbed dim alpha y dim - dSEmbed dim alpha x dim) ^ 2 - eps) := by
    simp only [I, dt]
    rw [dSEmbed_spaceSq hdim]; ring
  obtain ⟨f1, f2, f3, f4, f5⟩ := answers_near (dl := dt) (I := I) (eps := eps) (g := g) (E := E) (by rw [hg]; exact p1) (by
    rw [hI, hE']
    refine t4.trans (le_of_eq ?_)
    rw [hsplit]; ring)
  refine ⟨f1, f2, f3, f4, f5, ?_⟩
  rintro ⟨g1, g2⟩
  simp only [test, Bool.and_eq_true, decide_eq_true_eq, ge_iff_le] at g1 g2
  exact absurd g2.1 (not_lt.2 g1.1)

set_option maxHeartbeats 2000000 in
/-- **C120, accuracy in anti-de Sitter spacetime.** The same for anti-de Sitter spacetime, for points with `alpha² + r² ≤ R²`, `alpha ≥ s` and `|t / alpha| ≤ T`, with the interval of the ambient
space with two times. (This is what the function computes; it is not the causal order, see C44.) -/
theorem C120_antiDeSitter (hA : A.Accurate) (lib : MathLib) (hl : lib.Accurate) (eps : ℝ) (he0 : 0 ≤ eps) (he1 : eps ≤ 1) (dim : ℕ) (alpha alphaSq : ℝ) (hal : 0 < alpha)
    (ha2 : |alphaSq - alpha ^ 2| ≤ 2 * ulp * (alpha ^ 2 + 1)) (R T s : ℝ) (hR : 1 ≤ R) (hs : 0 < s) (hsa : s ^ 2 ≤ alpha ^ 2) (x y : Point)
    (hx : alpha ^ 2 + ∑ i ∈ Finset.Ico 1 dim, (x i) ^ 2 ≤ R ^ 2 ∧ |x 0 / alpha| ≤ T)
    (hy : alpha ^ 2 + ∑ i ∈ Finset.Ico 1 dim, (y i) ^ 2 ≤ R ^ 2 ∧ |y 0 / alpha| ≤ T)
    (hd : curvedErrD (dim - 1 : ℕ) R / 2 ^ 24 ≤ s ^ 2 / 2) (hE : curvedErr32 (dim - 1 : ℕ) R 1 T s / 2 ^ 24 ≤ 1) :
    let c := A.causalityAdS32 lib eps dim alpha alphaSq x y
    let dt := (adSTimes dim alpha y).1 - (adSTimes dim alpha x).1
    let I := dt ^ 2 + ((adSTimes dim alpha y).2 - (adSTimes dim alpha x).2) ^ 2 - spaceSq dim x y
    let g := curvedErrX32 (dim - 1 : ℕ) R 1 T s / 2 ^ 24
    let E := curvedErr32 (dim - 1 : ℕ) R 1 T s / 2 ^ 24
    (c.1 = true → -g ≤ dt ∧ -(eps + E) ≤ I) ∧ (c.2 = true → dt ≤ g ∧ -(eps + E) ≤ I) ∧ (E - eps ≤ I → c.1 = true ∨ c.2 = true) ∧
    (E - eps ≤ I → g ≤ dt → c.1 = true) ∧ (E - eps ≤ I → dt < -g → c.2 = true) ∧ ¬ (c.1 = true ∧ c.2 = true) := by
  intro c dt I g E
  have hu := u32_pos
  have hus := u32_small
  have eu : ∀ z : ℝ, z / 2 ^ 24 = z * u32 := fun z => by unfold u32; ring
  simp only [eu] at hd hE
  have hl' : lib.AccurateTo u32 := hl.to (by unfold ulp u32; norm_num)
  have h32 := (hA.err32).weaken hu.le w32_le
  have h64 := (hA.err64).weaken hu.le w32_le
  have hm := (hA.mixErr).weaken hu.le w32_le
  have hn : (0 : ℝ) ≤ ((dim - 1 : ℕ) : ℝ) := Nat.cast_nonneg _
  set n : ℝ := ((dim - 1 : ℕ) : ℝ)
  have hT : 0 ≤ T := (abs_nonneg _).trans hx.2
  have hT' : 0 ≤ 6 * T + 5 := by linarith
  have hle : curvedErr n R 1 (6 * T + 5) s ≤ curvedErr32 n R 1 T s := by unfold curvedErr32; nlinarith [sq_nonneg (R * 1)]
  have hE0 : curvedErr n R 1 (6 * T + 5) s * u32 ≤ 1 := (mul_le_mul_of_nonneg_right hle hu.le).trans hE
  obtain ⟨hn2, hX, hX0⟩ := sum_smallU hu hn hR le_rfl hT' hs hE0
  have hs2 : 0 < s ^ 2 := by positivity
  have hals : 1 / 2 ^ 20 ≤ alpha := by
    have h1 := curvedErrX_hd hu hn hd
    have h3 : (1 / 2 ^ 20 : ℝ) ^ 2 ≤ alpha ^ 2 := by
      refine le_trans ?_ (h1.trans hsa)
      unfold u32; norm_num
    exact le_of_sq_le_sq h3 hal.le
  have amp : ∀ z : Point, alpha ^ 2 + ∑ i ∈ Finset.Ico 1 dim, (z i) ^ 2 ≤ R ^ 2 →
      |A.mix (A.mix alphaSq + A.normSq dim z) - (alpha ^ 2 + ∑ i ∈ Finset.Ico 1 dim, (z i) ^ 2)| ≤ curvedErrD n R * u32 ∧
      (s ^ 2 ≤ alpha ^ 2 + ∑ i ∈ Finset.Ico 1 dim, (z i) ^ 2 ∧ alpha ^ 2 + ∑ i ∈ Finset.Ico 1 dim, (z i) ^ 2 ≤ R ^ 2) ∧ ∑ i ∈ Finset.Ico 1 dim, (z i) ^ 2 ≤ R ^ 2 := by
    intro z hz
    have b0 : 0 ≤ ∑ i ∈ Finset.Ico 1 dim, (z i) ^ 2 := Finset.sum_nonneg fun i _ => sq_nonneg _
    have b1 : ∑ i ∈ Finset.Ico 1 dim, (z i) ^ 2 ≤ R ^ 2 := by linarith [sq_nonneg alpha]
    have b2 : |A.normSq dim z - ∑ i ∈ Finset.Ico 1 dim, (z i) ^ 2| ≤ ((4 * n + 6) * (R ^ 2 + n + 1)) * u32 := normSq_nearU hu hus h32 hm dim z b1 hn2
    have b3 : |A.mix alphaSq - alpha ^ 2| ≤ (2 * (R ^ 2 + 1)) * u32 := by
      refine (hA.mix_conv (sq_nonneg _) ha2).trans ?_
      nlinarith
    have b4 := near_addU b3 b2
    have b5 : |alpha ^ 2 + ∑ i ∈ Finset.Ico 1 dim, (z i) ^ 2| ≤ R ^ 2 := by rw [abs_of_nonneg (by nlinarith)]; linarith
    have b7 : (2 * (R ^ 2 + 1) + (4 * n + 6) * (R ^ 2 + n + 1)) * u32 ≤ 1 := by
      refine le_trans (mul_le_mul_of_nonneg_right ?_ hu.le) hE0
      unfold curvedErr
      have c1 : 0 ≤ (4 * R * 1 + 1) * curvedErrX n R 1 (6 * T + 5) s := mul_nonneg (by linarith) hX0
      have c2 : 0 ≤ (2 * R * 1 + 1) ^ 2 := sq_nonneg _
      have c3 : (4 * n + 6) * (R ^ 2 + n + 1) ≤ (4 * n + 6) * (4 * R ^ 2 + n + 1) := mul_le_mul_of_nonneg_left (by nlinarith) (by positivity)
      nlinarith [sq_nonneg R]
    have b8 := near_rndU hu hm b4 b5 b7
    refine ⟨b8.trans (le_of_eq ?_), ⟨by linarith, by linarith⟩, b1⟩
    unfold curvedErrD; ring
  obtain ⟨hx2, hx3, hx4⟩ := amp x hx.1
  obtain ⟨hy2, hy3, hy4⟩ := amp y hy.1
  have qx := quot_near hA.mixErr hals hx.2
  have qy := quot_near hA.mixErr hals hy.2
  obtain ⟨p1, p2⟩ := coord_nearU hu h64 hl' hl'.sin hn hs hR le_rfl hT' hx3 hy3 hx2 hy2 hd hX ⟨Real.abs_sin_le_one _, qx⟩ ⟨Real.abs_sin_le_one _, qy⟩
    (fun v hv u hu => (Real.abs_sin_sub_sin_le u v).trans (by linarith [abs_nonneg (u - v)]))
  obtain ⟨q1, q2⟩ := coord_nearU hu h64 hl' hl'.cos hn hs hR le_rfl hT' hx3 hy3 hx2 hy2 hd hX ⟨Real.abs_cos_le_one _, qx⟩ ⟨Real.abs_cos_le_one _, qy⟩
    (fun v hv u hu => (Real.abs_cos_sub_cos_le u v).trans (by linarith [abs_nonneg (u - v)]))
  change |_ - ((adSTimes dim alpha y).1 - (adSTimes dim alpha x).1)| ≤ _ at p1
  change |(adSTimes dim alpha y).1 - (adSTimes dim alpha x).1| ≤ _ at p2
  change |_ - ((adSTimes dim alpha y).2 - (adSTimes dim alpha x).2)| ≤ _ at q1
  change |(adSTimes dim alpha y).2 - (adSTimes dim alpha x).2| ≤ _ at q2
  have s1 := near_sqU hu hl' p1 p2 hX
  have s2 := near_sqU hu hl' q1 q2 hX
  have s3 : |A.spaceSq dim x y - spaceSq dim x y| ≤ _ := spaceSq_nearU hu hus h32 hm dim x y hx4 hy4 hn2
  obtain ⟨s4, s5⟩ := spaceSq_bound dim x y hx4 hy4
  have s6 := near_addU s1 s2
  set X := curvedErrX n R 1 (6 * T + 5) s with hXd
  have sq4 : ∀ z : ℝ, |z| ≤ 2 * R * 1 → z ^ 2 ≤ 4 * R ^ 2 := fun z hz => by
    rw [← sq_abs]
    calc |z| ^ 2 ≤ (2 * R * 1) ^ 2 := pow_le_pow_left₀ (abs_nonneg _) hz 2
      _ = 4 * R ^ 2 := by ring
  have r1 := sq4 _ p2
  have r2 := sq4 _ q2
  have r3 : 0 ≤ ((adSTimes dim alpha y).1 - (adSTimes dim alpha x).1) ^ 2 := sq_nonneg _
  have r4 : 0 ≤ ((adSTimes dim alpha y).2 - (adSTimes dim alpha x).2) ^ 2 := sq_nonneg _
  have bX : 0 ≤ (4 * R * 1 + 1) * X := mul_nonneg (by linarith) hX0
  have b2 : 0 ≤ (2 * R * 1 + 1) ^ 2 := sq_nonneg _
  have bs : 0 ≤ (4 * n + 6) * (4 * R ^ 2 + n + 1) := by positivity
  have bA := sq_nonneg R
  have key : ∀ e, e ≤ curvedErr32 n R 1 T s → e * u32 ≤ 1 := fun e he => (mul_le_mul_of_nonneg_right he hu.le).trans hE
  have hsplit : curvedErr32 n R 1 T s = 2 * ((4 * R * 1 + 1) * X + 2 * (2 * R * 1 + 1) ^ 2 + 2) + (4 * n + 6) * (4 * R ^ 2 + n + 1) + 24 * R ^ 2 + 11 := by
    unfold curvedErr32 curvedErr; rw [hXd]; ring
  rw [show 2 * (2 * R * 1) + 1 = 4 * R * 1 + 1 by ring] at s6
  have t1 := near_rndU hu h64 s6 (B := 8 * R ^ 2) (by rw [abs_of_nonneg (by linarith)]; linarith) (key _ (by rw [hsplit]; linarith))
  have t1m := near_rndU hu hm t1 (B := 8 * R ^ 2) (by rw [abs_of_nonneg (by linarith)]; linarith) (key _ (by rw [hsplit]; linarith))
  have te : |A.mix eps - eps| ≤ 2 * u32 := by
    refine (hm.err eps).trans ?_
    rw [abs_of_nonneg he0]; nlinarith
  have t2 := near_subU s3 te
  have t3 := near_rndU hu hm t2 (B := 4 * R ^ 2 + 1) (by rw [abs_le]; constructor <;> linarith) (key _ (by rw [hsplit]; linarith))
  have t4 := near_subU t1m t3
  have hg : g = X * u32 := eu _
  have hE' : E = curvedErr32 n R 1 T s * u32 := eu _
  have hI : I + eps = ((adSTimes dim alpha y).1 - (adSTimes dim alpha x).1) ^ 2 + ((adSTimes dim alpha y).2 - (adSTimes dim alpha x).2) ^ 2 - (spaceSq dim x y - eps) := by
    simp only [I, dt]; ring
  obtain ⟨f1, f2, f3, f4, f5⟩ := answers_near (dl := dt) (I := I) (eps := eps) (g := g) (E := E) (by rw [hg]; exact p1) (by
    rw [hI, hE']
    refine t4.trans ?_
    refine mul_le_mul_of_nonneg_right ?_ hu.le
    rw [hsplit]; linarith)
  refine ⟨f1, f2, f3, f4, f5, ?_⟩
  rintro ⟨g1, g2⟩
  simp only [c, NpArith.causalityAdS32, test, Bool.and_eq_true, decide_eq_true_eq, ge_iff_le] at g1 g2
  exact absurd g2.1 (not_lt.2 g1.1)

end Causets
