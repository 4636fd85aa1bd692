import Verif.Props.Float32CurvedNum
import Verif.Props.FloatBH

/-! # C120 — the causality function of black hole spacetimes in single precision -/

namespace Causets

variable {A : NpArith}

/-- the test after the optional exchange of the points -/
noncomputable def bhTest32 (A : NpArith) (log : ℝ → ℝ) (metric : BHMetric) (rS : ℝ) (x y : Point) : Prop :=
  let f := A.light32 log metric rS
  let tOut := A.mix (f |y 1| - f |x 1|)
  let tIn := if metric = .schwarzschild then -tOut else A.r32 (|x 1| - |y 1|)
  if |y 1| ≤ |x 1| ∧ |x 1| ≤ A.mix rS then tOut ≥ A.r32 (y 0 - x 0) ∧ A.r32 (y 0 - x 0) ≥ tIn
  else if A.mix rS ≤ |x 1| ∧ |x 1| ≥ |y 1| then A.r32 (y 0 - x 0) ≥ tIn
  else if A.mix rS ≤ |x 1| ∧ |x 1| ≤ |y 1| then A.r32 (y 0 - x 0) ≥ tOut
  else False

/-- are the points exchanged? -/
def bhSwap32 (A : NpArith) (metric : BHMetric) (rS : ℝ) (x y : Point) : Prop :=
  (metric = .schwarzschild ∧ (|x 1| < A.mix rS ∨ |y 1| < A.mix rS) ∧ |x 1| < |y 1|) ∨
  (¬ (metric = .schwarzschild ∧ (|x 1| < A.mix rS ∨ |y 1| < A.mix rS)) ∧ A.r32 (y 0 - x 0) < 0)

open Classical in
theorem bh32_form (hA : A.Accurate) (log : ℝ → ℝ) (metric : BHMetric) (rS : ℝ) (x y : Point) :
    ((A.causalityBH32 log metric rS x y).1 = true ↔ 0 ≤ A.r32 (x 1 * y 1) ∧ ¬ bhSwap32 A metric rS x y ∧ bhTest32 A log metric rS x y) ∧
    ((A.causalityBH32 log metric rS x y).2 = true ↔ 0 ≤ A.r32 (x 1 * y 1) ∧ bhSwap32 A metric rS x y ∧ bhTest32 A log metric rS y x) := by
  have hneg : -A.r32 (y 0 - x 0) = A.r32 (x 0 - y 0) := by rw [← hA.r32.odd]; congr 1; ring
  unfold NpArith.causalityBH32
  dsimp only
  by_cases hp : A.r32 (x 1 * y 1) < 0
  · simp [test, hp]
  · have hp' : 0 ≤ A.r32 (x 1 * y 1) := not_lt.1 hp
    have hsw : (if test (metric = .schwarzschild ∧ (|x 1| < A.mix rS ∨ |y 1| < A.mix rS)) then test (|x 1| < |y 1|) else test (A.r32 (y 0 - x 0) < 0)) =
        test (bhSwap32 A metric rS x y) := by
      unfold bhSwap32
      by_cases h1 : metric = .schwarzschild ∧ (|x 1| < A.mix rS ∨ |y 1| < A.mix rS)
      · simp [test, h1]
      · have h2 : ¬ (metric = .schwarzschild ∧ (|x 1| < A.mix rS ∨ |y 1| < A.mix rS) ∧ |x 1| < |y 1|) := fun h => h1 ⟨h.1, h.2.1⟩
        simp only [test, h1, h2, decide_false, Bool.false_eq_true, if_false, not_false_eq_true, true_and, false_or]
    rw [hsw]
    have hp0 : test (A.r32 (x 1 * y 1) < 0) = false := by simp [test, hp']
    rw [hp0]
    simp only [Bool.false_eq_true, if_false]
    by_cases h1 : bhSwap32 A metric rS x y
    · have : test (bhSwap32 A metric rS x y) = true := by simp [test, h1]
      rw [this]
      simp only [if_true, Bool.false_eq_true, false_iff, hp', true_and, h1, not_true, false_and, not_false_eq_true]
      unfold bhTest32
      dsimp only
      rw [hneg]
      by_cases c1 : |x 1| ≤ |y 1| ∧ |y 1| ≤ A.mix rS
      · simp [test, c1]
      · by_cases c2 : A.mix rS ≤ |y 1| ∧ |y 1| ≥ |x 1|
        · simp [test, c1, c2]
        · by_cases c3 : A.mix rS ≤ |y 1| ∧ |y 1| ≤ |x 1| <;> simp [test, c1, c2, c3]
    · have : test (bhSwap32 A metric rS x y) = false := by simp [test, h1]
      rw [this]
      simp only [Bool.false_eq_true, if_false, false_iff, hp', true_and, h1, false_and, not_false_eq_true]
      unfold bhTest32
      dsimp only
      by_cases c1 : |y 1| ≤ |x 1| ∧ |x 1| ≤ A.mix rS
      · simp [test, c1]
      · by_cases c2 : A.mix rS ≤ |x 1| ∧ |x 1| ≥ |y 1|
        · simp [test, c1, c2]
        · by_cases c3 : A.mix rS ≤ |x 1| ∧ |x 1| ≤ |y 1| <;> simp [test, c1, c2, c3]

/-- **C120, directions in black hole spacetimes.** With rounding after every operation and any logarithm, for all points with `float32` times: never both directions; in Eddington–Finkelstein
coordinates, and in Schwarzschild coordinates outside, a point with an answer "first precedes second" is not later, without rounding error; in Schwarzschild coordinates with one point inside it
is not closer to the singularity; if the points differ in time and radius, swapping the points swaps the answers. -/
theorem C120_BH_directions (hA : A.Accurate) (log : ℝ → ℝ) (metric : BHMetric) (rS : ℝ) (x y : Point) (hx : x 0 ∈ Binary32) (hy : y 0 ∈ Binary32) :
    let c := A.causalityBH32 log metric rS
    ¬ ((c x y).1 = true ∧ (c x y).2 = true) ∧
    ((c x y).1 = true → if metric = .schwarzschild ∧ (|x 1| < A.mix rS ∨ |y 1| < A.mix rS) then |y 1| ≤ |x 1| else x 0 ≤ y 0) ∧
    ((c x y).2 = true → if metric = .schwarzschild ∧ (|x 1| < A.mix rS ∨ |y 1| < A.mix rS) then |x 1| < |y 1| else y 0 < x 0) ∧
    (x 0 ≠ y 0 → |x 1| ≠ |y 1| → c y x = ((c x y).2, (c x y).1)) := by
  intro c
  have hs : A.r32 (y 0 - x 0) < 0 ↔ y 0 < x 0 := by rw [← not_le, sub_nonneg_floatNum (by norm_num) hA.r32 hx hy, not_le]
  have hs' : A.r32 (x 0 - y 0) < 0 ↔ x 0 < y 0 := by rw [← not_le, sub_nonneg_floatNum (by norm_num) hA.r32 hy hx, not_le]
  obtain ⟨f1, f2⟩ := bh32_form hA log metric rS x y
  obtain ⟨g1, g2⟩ := bh32_form hA log metric rS y x
  have hsw : bhSwap32 A metric rS x y ↔ if metric = .schwarzschild ∧ (|x 1| < A.mix rS ∨ |y 1| < A.mix rS) then |x 1| < |y 1| else y 0 < x 0 := by
    unfold bhSwap32
    rw [hs]
    split <;> rename_i h
    · constructor
      · rintro (h' | h')
        · exact h'.2.2
        · exact absurd h h'.1
      · exact fun h' => Or.inl ⟨h.1, h.2, h'⟩
    · constructor
      · rintro (h' | h')
        · exact absurd ⟨h'.1, h'.2.1⟩ h
        · exact h'.2
      · exact fun h' => Or.inr ⟨h, h'⟩
  have hsw' : bhSwap32 A metric rS y x ↔ if metric = .schwarzschild ∧ (|x 1| < A.mix rS ∨ |y 1| < A.mix rS) then |y 1| < |x 1| else x 0 < y 0 := by
    unfold bhSwap32
    rw [hs', or_comm (a := |y 1| < A.mix rS)]
    split <;> rename_i h
    · constructor
      · rintro (h' | h')
        · exact h'.2.2
        · exact absurd h h'.1
      · exact fun h' => Or.inl ⟨h.1, h.2, h'⟩
    · constructor
      · rintro (h' | h')
        · exact absurd ⟨h'.1, h'.2.1⟩ h
        · exact h'.2
      · exact fun h' => Or.inr ⟨h, h'⟩
  refine ⟨?_, ?_, ?_, fun h1 h2 => ?_⟩
  · rintro ⟨a, b⟩
    exact (f1.1 a).2.1 (f2.1 b).2.1
  · intro h
    have := (f1.1 h).2.1
    rw [hsw] at this
    by_cases h' : metric = .schwarzschild ∧ (|x 1| < A.mix rS ∨ |y 1| < A.mix rS)
    · rw [if_pos h'] at this ⊢; exact not_lt.1 this
    · rw [if_neg h'] at this ⊢; exact not_lt.1 this
  · intro h
    exact hsw.1 (f2.1 h).2.1
  · have hn : bhSwap32 A metric rS y x ↔ ¬ bhSwap32 A metric rS x y := by
      rw [hsw, hsw']
      split
      · rw [not_lt]; exact ⟨le_of_lt, fun h => lt_of_le_of_ne h (Ne.symm h2)⟩
      · rw [not_lt]; exact ⟨le_of_lt, fun h => lt_of_le_of_ne h h1⟩
    have hm : A.r32 (y 1 * x 1) = A.r32 (x 1 * y 1) := by rw [mul_comm]
    have e1 : (c y x).1 = true ↔ (c x y).2 = true := by
      rw [g1, f2, hn, not_not, hm]
    have e2 : (c y x).2 = true ↔ (c x y).1 = true := by
      rw [g2, f1, hn, hm]
    exact Prod.ext (Bool.eq_iff_iff.2 e1) (Bool.eq_iff_iff.2 e2)

/-! ## accuracy -/

/-- **Specification.** The error of the argument of the logarithm, in units of `2^-24`. -/
noncomputable def bhQ32 (R rS : ℝ) : ℝ := 2 * (2 * R + 3) * (1 + R / rS) / rS + R / rS + 2

/-- **Specification.** The error of a travel time of light, in units of `2^-24`: radii (and the Schwarzschild radius `rS`) up to `R`, and for both radii `|r / rS - 1| ≥ s` and
`|log |r / rS - 1|| ≤ L`. -/
noncomputable def bhErr32 (R rS L s : ℝ) : ℝ :=
  2 * ((2 * rS + 1) * (2 * bhQ32 R rS / s + 2 * L + 4) + L * (4 * R + 3) + 2 * rS * L + 2 + R + 2 * rS * L + 2) + 2 * (R + 2 * rS * L) + 2

theorem log_nearU {u : ℝ} {a b s e : ℝ} (hs : 0 < s) (hb : s ≤ |b|) (h : |a - b| ≤ e * u) (he : e * u ≤ s / 2) : 0 < |a| ∧ abs (Real.log |a| - Real.log |b|) ≤ (2 * e / s) * u := by
  have h1 : abs (|a| - |b|) ≤ e * u := (abs_abs_sub_abs_le a b).trans h
  have h1' := abs_le.1 h1
  have ha : s / 2 ≤ |a| := by linarith
  have ha0 : 0 < |a| := by linarith
  have hb0 : 0 < |b| := by linarith
  refine ⟨ha0, ?_⟩
  have key : ∀ p q : ℝ, 0 < p → s / 2 ≤ q → |p - q| ≤ e * u → Real.log p - Real.log q ≤ (2 * e / s) * u := by
    intro p q hp hq hpq
    have hq0 : 0 < q := by linarith
    rw [← Real.log_div hp.ne' hq0.ne']
    have h3 := Real.log_le_sub_one_of_pos (div_pos hp hq0)
    have h4 : p / q - 1 = (p - q) / q := by field_simp
    have h5 : (p - q) / q ≤ |p - q| / (s / 2) := by
      refine (div_le_div_of_nonneg_right (le_abs_self _) hq0.le).trans ?_
      exact div_le_div_of_nonneg_left (abs_nonneg _) (by linarith) hq
    have h6 : |p - q| / (s / 2) ≤ e * u / (s / 2) := div_le_div_of_nonneg_right hpq (by linarith)
    have h7 : e * u / (s / 2) = (2 * e / s) * u := by field_simp
    linarith
  rw [abs_le]
  have k1 := key |a| |b| ha0 (by linarith) h1
  have k2 := key |b| |a| hb0 ha (by rw [abs_sub_comm]; exact h1)
  constructor <;> linarith

/-- a `float32` number is not changed by the conversion to the type of the mixed operations -/
theorem NpArith.Accurate.mix_fix (hA : A.Accurate) {z : ℝ} (hz : z ∈ Binary32) : A.mix z = z := by
  unfold NpArith.mix NpArith.rnd
  split
  · exact hA.r64.fix (C115_ieee.2.2.1 hz)
  · exact hA.r32.fix hz

/-- the Schwarzschild radius, converted, compares to the radii away from the horizon like the exact one -/
theorem mix_radius (hA : A.Accurate) {R rS s r : ℝ} (hS : 0 < rS) (hSR : rS ≤ R) (hs : 0 < s) (hrs : s ≤ |r / rS - 1|) (h1 : bhQ32 R rS * u32 ≤ s / 2) :
    (r < A.mix rS ↔ r < rS) ∧ (r ≤ A.mix rS ↔ r ≤ rS) ∧ (A.mix rS ≤ r ↔ rS ≤ r) := by
  have hu := u32_pos
  have h := ((hA.mixErr).weaken hu.le w32_le).err rS
  rw [abs_of_pos hS] at h
  have hR : 0 < R := by linarith
  have q1 : (R + 1) / rS ≤ bhQ32 R rS := by
    unfold bhQ32
    have e1 : 0 ≤ R / rS := by positivity
    have e2 : 2 * (2 * R + 3) * (1 + R / rS) / rS = 2 * (2 * R + 3) / rS + 2 * (2 * R + 3) * (R / rS) / rS := by ring
    have e3 : 0 ≤ 2 * (2 * R + 3) * (R / rS) / rS := by positivity
    have e4 : (R + 1) / rS ≤ 2 * (2 * R + 3) / rS := div_le_div_of_nonneg_right (by linarith) hS.le
    linarith
  have q2 : u32 * (rS + 1) ≤ s / 2 * rS := by
    have := mul_le_mul_of_nonneg_right q1 hu.le
    have h3 : (R + 1) / rS * u32 ≤ s / 2 := this.trans h1
    have h4 := mul_le_mul_of_nonneg_right h3 hS.le
    rw [show (R + 1) / rS * u32 * rS = (R + 1) * u32 by field_simp] at h4
    nlinarith
  have h' := abs_le.1 (h.trans q2)
  have e : r / rS - 1 = (r - rS) / rS := by field_simp
  rw [e, abs_div, abs_of_pos hS, le_div_iff₀ hS] at hrs
  have hsS : 0 < s * rS := by positivity
  rcases le_or_gt 0 (r - rS) with h0 | h0
  · rw [abs_of_nonneg h0] at hrs
    refine ⟨⟨fun _ => ?_, fun _ => ?_⟩, ⟨fun _ => ?_, fun _ => ?_⟩, ⟨fun _ => ?_, fun _ => ?_⟩⟩ <;> linarith [h'.1, h'.2]
  · rw [abs_of_neg h0] at hrs
    refine ⟨⟨fun _ => ?_, fun _ => ?_⟩, ⟨fun _ => ?_, fun _ => ?_⟩, ⟨fun _ => ?_, fun _ => ?_⟩⟩ <;> linarith [h'.1, h'.2]

theorem bhErr32_ge {R rS L s : ℝ} (hS : 0 < rS) (hSR : rS ≤ R) (hL0 : 0 ≤ L) (hs : 0 < s) :
    0 ≤ bhQ32 R rS ∧ 0 ≤ (2 * rS + 1) * (2 * bhQ32 R rS / s + 2 * L + 4) ∧ 4 * R + 3 ≤ bhErr32 R rS L s ∧ 0 ≤ L * (4 * R + 3) ∧ 0 ≤ rS * L := by
  have hR : 0 < R := by linarith
  have h1 : 0 ≤ bhQ32 R rS := by unfold bhQ32; positivity
  have hSL : 0 ≤ rS * L := by positivity
  have h2 : 0 ≤ L * (4 * R + 3) := by positivity
  have h3 : 0 ≤ 2 * bhQ32 R rS / s := by positivity
  have h4 : 4 ≤ (2 * rS + 1) * (2 * bhQ32 R rS / s + 2 * L + 4) := by nlinarith
  refine ⟨h1, by linarith, ?_, h2, hSL⟩
  unfold bhErr32
  linarith

set_option maxHeartbeats 1000000 in
/-- the error of the function of the travel times -/
theorem light32_near (hA : A.Accurate) {log : ℝ → ℝ} (hl : ∀ z, 0 < z → |log z - Real.log z| ≤ 2 / 2 ^ 24 * (|Real.log z| + 1)) (metric : BHMetric) {R rS L s r : ℝ} (hS : 0 < rS)
    (hSR : rS ≤ R) (hr0 : 0 ≤ r) (hrm : r ∈ Binary32) (hrR : r ≤ R) (hs : 0 < s) (hs1 : s ≤ 1) (hrs : s ≤ |r / rS - 1|) (hL : abs (Real.log |r / rS - 1|) ≤ L)
    (h1 : bhQ32 R rS * u32 ≤ s / 2) (hE : bhErr32 R rS L s * u32 ≤ 1) :
    |A.light32 log metric rS r - lightExact metric rS r| ≤ ((2 * rS + 1) * (2 * bhQ32 R rS / s + 2 * L + 4) + L * (4 * R + 3) + 2 * rS * L + 2 + R + 2 * rS * L + 2) * u32 ∧
    |lightExact metric rS r| ≤ R + 2 * rS * L := by
  have hu := u32_pos
  have h64 := (hA.err64).weaken hu.le w32_le
  have hm := (hA.mixErr).weaken hu.le w32_le
  have hR : 0 < R := by linarith
  have hL0 : 0 ≤ L := (abs_nonneg _).trans hL
  obtain ⟨hQ0, hterm, hge, hLR, hSL⟩ := bhErr32_ge hS hSR hL0 hs
  have key : ∀ e, e ≤ bhErr32 R rS L s → e * u32 ≤ 1 := fun e he => (mul_le_mul_of_nonneg_right he hu.le).trans hE
  have hRS : 0 ≤ R / rS := by positivity
  have absS : |rS| ≤ R := by rw [abs_of_pos hS]; exact hSR
  -- the Schwarzschild radius and its negative
  have s1 : |A.mix rS - rS| ≤ (R + 1) * u32 := by
    refine (hm.err _).trans ?_
    nlinarith
  have s2 : |A.r64 (0 - rS) - -rS| ≤ (R + 1) * u32 := by
    have := h64.err (0 - rS)
    rw [zero_sub, abs_neg] at this
    rw [zero_sub]
    nlinarith
  have s3 : |A.mix (A.r64 (0 - rS)) - -rS| ≤ (2 * R + 3) * u32 := by
    have := near_rndU hu hm s2 (B := R) (by rw [abs_neg]; exact absS) (key _ (by linarith))
    refine this.trans (le_of_eq ?_)
    ring
  -- the argument of the logarithm
  have a0 : |r - A.mix rS - (r - rS)| ≤ (R + 1) * u32 := by
    rw [show r - A.mix rS - (r - rS) = -(A.mix rS - rS) by ring, abs_neg]; exact s1
  have a1 : |A.mix (r - A.mix rS) - (r - rS)| ≤ (2 * R + 3) * u32 := by
    have := near_rndU hu hm a0 (B := R) (by rw [abs_le]; constructor <;> linarith) (key _ (by linarith))
    refine this.trans (le_of_eq ?_)
    ring
  set D := A.mix (A.r64 (0 - rS)) with hD
  set N := A.mix (r - A.mix rS) with hN
  have e1 : (r - rS) / (-rS) = -(r / rS - 1) := by field_simp
  have hV : |-(r / rS - 1)| ≤ R / rS := by
    rw [← e1, abs_div, abs_neg, abs_of_pos hS]
    refine div_le_div_of_nonneg_right ?_ hS.le
    rw [abs_le]; constructor <;> linarith
  have hDS : rS / 2 ≤ |D| := by
    have q1 : 2 * (2 * R + 3) / rS ≤ bhQ32 R rS := by
      unfold bhQ32
      have e2 : 2 * (2 * R + 3) * (1 + R / rS) / rS = 2 * (2 * R + 3) / rS + 2 * (2 * R + 3) * (R / rS) / rS := by ring
      have e3 : 0 ≤ 2 * (2 * R + 3) * (R / rS) / rS := by positivity
      linarith
    have q2 := (mul_le_mul_of_nonneg_right q1 hu.le).trans h1
    have q3 := mul_le_mul_of_nonneg_right q2 hS.le
    rw [show 2 * (2 * R + 3) / rS * u32 * rS = 2 * ((2 * R + 3) * u32) by field_simp] at q3
    have q4 : abs (-rS) - |D| ≤ |D - -rS| := by
      have := abs_sub_abs_le_abs_sub (-rS) D
      rwa [abs_sub_comm] at this
    rw [abs_neg, abs_of_pos hS] at q4
    nlinarith
  have hD0 : D ≠ 0 := by
    intro h
    rw [h, abs_zero] at hDS
    linarith
  have a2 : |N / D - (-(r / rS - 1))| ≤ (2 * (2 * R + 3) * (1 + R / rS) / rS) * u32 := by
    have e2 : N / D - (-(r / rS - 1)) = ((N - (r - rS)) - (-(r / rS - 1)) * (D - -rS)) / D := by
      field_simp
      ring
    rw [e2, abs_div, div_le_iff₀ (abs_pos.2 hD0)]
    have e3 : abs (N - (r - rS) - (-(r / rS - 1)) * (D - -rS)) ≤ (2 * R + 3) * u32 + R / rS * ((2 * R + 3) * u32) := by
      refine (abs_sub _ _).trans (add_le_add a1 ?_)
      rw [abs_mul]
      exact mul_le_mul hV s3 (abs_nonneg _) hRS
    refine e3.trans ?_
    have e4 : 0 ≤ 2 * (2 * R + 3) * (1 + R / rS) / rS * u32 := by positivity
    refine le_trans (le_of_eq ?_) (mul_le_mul_of_nonneg_left hDS e4)
    field_simp
  have hk1 : (2 * (2 * R + 3) * (1 + R / rS) / rS) * u32 ≤ 1 := by
    have : 2 * (2 * R + 3) * (1 + R / rS) / rS ≤ bhQ32 R rS := by unfold bhQ32; linarith
    have := mul_le_mul_of_nonneg_right this hu.le
    linarith
  have a3 : |A.mix (N / D) - (-(r / rS - 1))| ≤ bhQ32 R rS * u32 := near_rndU hu hm a2 hV hk1
  -- the logarithm
  obtain ⟨b0, b1⟩ := log_nearU hs (by rw [abs_neg]; exact hrs) a3 h1
  rw [abs_neg] at b1
  have b2 := hl _ b0
  have b3 : abs (Real.log |A.mix (N / D)|) ≤ L + 1 := by
    have c1 := abs_sub_abs_le_abs_sub (Real.log |A.mix (N / D)|) (Real.log |r / rS - 1|)
    have c2 : (2 * bhQ32 R rS / s) * u32 ≤ 1 := by
      rw [show (2 * bhQ32 R rS / s) * u32 = bhQ32 R rS * u32 / (s / 2) by field_simp]
      rw [div_le_one (by linarith)]; exact h1
    linarith
  have b4 : abs (log |A.mix (N / D)| - Real.log |r / rS - 1|) ≤ (2 * bhQ32 R rS / s + 2 * L + 4) * u32 := by
    have c1 := abs_sub_le (log |A.mix (N / D)|) (Real.log |A.mix (N / D)|) (Real.log |r / rS - 1|)
    have c2 : 2 / 2 ^ 24 * (abs (Real.log |A.mix (N / D)|) + 1) ≤ 2 * u32 * (L + 1 + 1) := by
      have : (2 : ℝ) / 2 ^ 24 = 2 * u32 := by unfold u32; ring
      rw [this]
      exact mul_le_mul_of_nonneg_left (by linarith) (by linarith)
    linarith
  -- the product
  obtain ⟨k, K, hK0, hK2, hKk, hKe, hKf⟩ : ∃ k K, 0 ≤ K ∧ K ≤ 2 * rS ∧ |A.mix k - K| ≤ (4 * R + 3) * u32 ∧ lightExact metric rS r = r + K * Real.log |r / rS - 1| ∧
      (if metric = .schwarzschild then rS else A.r64 (2 * rS)) = k := by
    by_cases hmt : metric = .schwarzschild
    · refine ⟨rS, rS, hS.le, by linarith, s1.trans (mul_le_mul_of_nonneg_right (by linarith) hu.le), ?_, by rw [if_pos hmt]⟩
      unfold lightExact rayTime; rw [if_pos hmt]; ring
    · refine ⟨A.r64 (2 * rS), 2 * rS, by linarith, le_rfl, ?_, ?_, by rw [if_neg hmt]⟩
      · have t1 : |A.r64 (2 * rS) - 2 * rS| ≤ (2 * R + 1) * u32 := by
          have := h64.err (2 * rS)
          rw [abs_of_pos (show 0 < 2 * rS by linarith)] at this
          nlinarith
        have := near_rndU hu hm t1 (B := 2 * R) (by rw [abs_of_pos (show 0 < 2 * rS by linarith)]; linarith) (key _ (by linarith))
        refine this.trans (le_of_eq ?_)
        ring
      · unfold lightExact rayTime; rw [if_neg hmt]
  have c1 := near_mulU hKk b4 (B := 2 * rS) (D := L) (by rw [abs_of_nonneg hK0]; exact hK2) hL (key _ hge)
  have c2 : abs (K * Real.log |r / rS - 1|) ≤ 2 * rS * L := by
    rw [abs_mul, abs_of_nonneg hK0]
    exact mul_le_mul hK2 hL (abs_nonneg _) (by linarith)
  have c3 := near_rndU hu hm c1 c2 (key _ (by unfold bhErr32; linarith))
  have c4 := near_addU (show |r - r| ≤ 0 * u32 by simp) c3
  have c5 : abs (r + K * Real.log |r / rS - 1|) ≤ R + 2 * rS * L := by
    refine (abs_add_le _ _).trans ?_
    rw [abs_of_nonneg hr0]; linarith
  have c6 := near_rndU hu hm c4 c5 (key _ (by unfold bhErr32; linarith))
  rw [hKe]
  refine ⟨?_, c5⟩
  unfold NpArith.light32
  dsimp only
  rw [hKf, sub_zero, hA.mix_fix hrm, add_zero, hA.mix_fix hrm, ← hN, ← hD]
  refine c6.trans (le_of_eq ?_)
  ring

set_option maxHeartbeats 1000000 in
/-- **C120, accuracy in black hole spacetimes.** With `float32` coordinates: let the Schwarzschild radius be at most `R`, the radii of two points on the same side `float32` numbers up to `R`,
`|r / rS - 1| ≥ s` and `|log |r / rS - 1|| ≤ L` for both (away from the horizon), `|y 0 - x 0| ≤ τ`, let NumPy's logarithm be accurate to `2^-23` and the numbers moderate. Then with
`E = (bhErr32 R rS L s + τ + 1) / 2^24`: if the first point precedes the second one (exactly) even after any change of its time by at most `E`, the computed answer is "first precedes second"; and
this answer is only given if the first point precedes the second one (exactly) after some change of its time by at most `E`. -/
theorem C120_BH_accuracy (hA : A.Accurate) (log : ℝ → ℝ) (hl : ∀ z, 0 < z → |log z - Real.log z| ≤ 2 / 2 ^ 24 * (|Real.log z| + 1)) (metric : BHMetric) (R rS L s τ : ℝ) (hS : 0 < rS)
    (hSR : rS ≤ R) (hs : 0 < s) (hs1 : s ≤ 1) (x y : Point) (hside : 0 ≤ x 1 * y 1) (hτ : |y 0 - x 0| ≤ τ)
    (hx : |x 1| ∈ Binary32 ∧ |x 1| ≤ R ∧ s ≤ abs (|x 1| / rS - 1) ∧ abs (Real.log (abs (|x 1| / rS - 1))) ≤ L)
    (hy : |y 1| ∈ Binary32 ∧ |y 1| ≤ R ∧ s ≤ abs (|y 1| / rS - 1) ∧ abs (Real.log (abs (|y 1| / rS - 1))) ≤ L)
    (h1 : bhQ32 R rS / 2 ^ 24 ≤ s / 2) (hE : bhErr32 R rS L s / 2 ^ 24 ≤ 1) :
    let E := (bhErr32 R rS L s + τ + 1) / 2 ^ 24
    ((∀ δ, |δ| ≤ E → (causalityBH metric rS x (later y δ)).1 = true) → (A.causalityBH32 log metric rS x y).1 = true) ∧
    ((A.causalityBH32 log metric rS x y).1 = true → ∃ δ, |δ| ≤ E ∧ (causalityBH metric rS x (later y δ)).1 = true) := by
  intro E
  have hu := u32_pos
  have eu : ∀ z : ℝ, z / 2 ^ 24 = z * u32 := fun z => by unfold u32; ring
  rw [eu] at h1 hE
  have hE' : E = (bhErr32 R rS L s + τ + 1) * u32 := eu _
  clear_value E
  have h32 := (hA.err32).weaken hu.le w32_le
  have hm := (hA.mixErr).weaken hu.le w32_le
  have hR : 0 < R := by linarith
  have hL0 : 0 ≤ L := (abs_nonneg _).trans hx.2.2.2
  obtain ⟨hQ0, hterm, hge, hLR, hSL⟩ := bhErr32_ge hS hSR hL0 hs
  have hτ0 : 0 ≤ τ := (abs_nonneg _).trans hτ
  have hb0 : R + 1 ≤ bhErr32 R rS L s := by linarith
  have hE0 : 0 ≤ E := by rw [hE']; exact mul_nonneg (by linarith) hu.le
  obtain ⟨a1, a2⟩ := light32_near hA hl metric hS hSR (abs_nonneg (x 1)) hx.1 hx.2.1 hs hs1 hx.2.2.1 hx.2.2.2 h1 hE
  obtain ⟨b1, b2⟩ := light32_near hA hl metric hS hSR (abs_nonneg (y 1)) hy.1 hy.2.1 hs hs1 hy.2.2.1 hy.2.2.2 h1 hE
  -- the travel times
  have c1 := near_subU b1 a1
  have c2 : abs (lightExact metric rS |y 1| - lightExact metric rS |x 1|) ≤ 2 * (R + 2 * rS * L) := (abs_sub _ _).trans (by linarith)
  have c3 := near_rndU hu hm c1 c2 ((mul_le_mul_of_nonneg_right (by unfold bhErr32; linarith) hu.le).trans hE)
  have c4 : abs (A.mix (A.light32 log metric rS |y 1| - A.light32 log metric rS |x 1|) - (lightExact metric rS |y 1| - lightExact metric rS |x 1|)) ≤ bhErr32 R rS L s * u32 := by
    refine c3.trans (le_of_eq ?_)
    unfold bhErr32; ring
  have c5 : abs (A.r32 (|x 1| - |y 1|) - (|x 1| - |y 1|)) ≤ bhErr32 R rS L s * u32 := by
    refine (h32.err _).trans ?_
    have : abs (|x 1| - |y 1|) ≤ R := by
      rw [abs_le]; constructor <;> linarith [abs_nonneg (x 1), abs_nonneg (y 1), hx.2.1, hy.2.1]
    nlinarith
  have d1 : |A.r32 (y 0 - x 0) - (y 0 - x 0)| ≤ (τ + 1) * u32 := by
    refine (h32.err _).trans ?_
    nlinarith
  obtain ⟨mx1, mx2, mx3⟩ := mix_radius hA hS hSR hs hx.2.2.1 h1
  obtain ⟨my1, my2, my3⟩ := mix_radius hA hS hSR hs hy.2.2.1 h1
  set tOut := lightExact metric rS |y 1| - lightExact metric rS |x 1| with htOut
  set toh := A.mix (A.light32 log metric rS |y 1| - A.light32 log metric rS |x 1|) with htoh
  obtain ⟨ti, hti, tih, htih, c6⟩ : ∃ ti, (if metric = .schwarzschild then -tOut else |x 1| - |y 1|) = ti ∧ ∃ tih, (if metric = .schwarzschild then -toh else A.r32 (|x 1| - |y 1|)) = tih ∧
      |tih - ti| ≤ bhErr32 R rS L s * u32 := by
    refine ⟨_, rfl, _, rfl, ?_⟩
    split
    · rw [show -toh - -tOut = -(toh - tOut) by ring, abs_neg]; exact c4
    · exact c5
  have d1' := abs_le.1 d1
  have c4' := abs_le.1 c4
  have c6' := abs_le.1 c6
  have hEs : E = bhErr32 R rS L s * u32 + (τ + 1) * u32 := by rw [hE']; ring
  have hxS : |x 1| ≠ rS := fun h => by
    have := hx.2.2.1
    rw [h, div_self hS.ne', sub_self, abs_zero] at this
    linarith
  have hyS : |y 1| ≠ rS := fun h => by
    have := hy.2.2.1
    rw [h, div_self hS.ne', sub_self, abs_zero] at this
    linarith
  -- the exact test of a shifted point
  have ex : ∀ δ, (causalityBH metric rS x (later y δ)).1 = true ↔ ¬ bhSwap metric rS x (later y δ) ∧
      (if |y 1| ≤ |x 1| ∧ |x 1| ≤ rS then tOut ≥ y 0 + δ - x 0 ∧ y 0 + δ - x 0 ≥ ti
        else if rS ≤ |x 1| ∧ |x 1| ≥ |y 1| then y 0 + δ - x 0 ≥ ti
        else if rS ≤ |x 1| ∧ |x 1| ≤ |y 1| then y 0 + δ - x 0 ≥ tOut else False) := by
    intro δ
    rw [(bh_form metric hS x _).1, ← hti]
    unfold bhTest
    simp only [later, one_ne_zero, if_false, if_true, hside, true_and]
    rfl
  have sw : ∀ δ, bhSwap metric rS x (later y δ) ↔ (metric = .schwarzschild ∧ (|x 1| < rS ∨ |y 1| < rS) ∧ |x 1| < |y 1|) ∨
      (¬ (metric = .schwarzschild ∧ (|x 1| < rS ∨ |y 1| < rS)) ∧ y 0 + δ - x 0 < 0) := fun δ => Iff.rfl
  have fl : (A.causalityBH32 log metric rS x y).1 = true ↔ ¬ bhSwap32 A metric rS x y ∧
      (if |y 1| ≤ |x 1| ∧ |x 1| ≤ rS then toh ≥ A.r32 (y 0 - x 0) ∧ A.r32 (y 0 - x 0) ≥ tih
        else if rS ≤ |x 1| ∧ |x 1| ≥ |y 1| then A.r32 (y 0 - x 0) ≥ tih
        else if rS ≤ |x 1| ∧ |x 1| ≤ |y 1| then A.r32 (y 0 - x 0) ≥ toh else False) := by
    rw [(bh32_form hA log metric rS x y).1, ← htih]
    unfold bhTest32
    simp only [hA.err32.nonneg _ hside, true_and, mx2, mx3]
    rfl
  constructor
  · intro h
    have h0 := (ex 0).1 (h 0 (by rw [abs_zero]; exact hE0))
    have hp := (ex E).1 (h E (abs_of_nonneg hE0).le)
    have hm := (ex (-E)).1 (h (-E) (by rw [abs_neg]; exact (abs_of_nonneg hE0).le))
    rw [fl]
    refine ⟨?_, ?_⟩
    · have := h0.1
      rw [sw] at this
      unfold bhSwap32
      rw [mx1, my1]
      push Not at this ⊢
      refine ⟨this.1, fun h' => hA.err32.nonneg _ ?_⟩
      have := this.2 h'
      linarith
    · have hp2 := hp.2
      have hm2 := hm.2
      split_ifs at hp2 hm2 ⊢ with k1 k2 k3
      · exact ⟨by linarith [hp2.1], by linarith [hm2.2]⟩
      · linarith
      · linarith
  · intro h
    rw [fl] at h
    obtain ⟨h2, h3⟩ := h
    have f1 : ∀ r, lightExact .schwarzschild rS r = rayTime 1 rS r := fun r => by simp [lightExact]
    have f2 : ∀ r, metric ≠ .schwarzschild → lightExact metric rS r = rayTime 2 rS r := fun r hm => by simp [lightExact, hm]
    -- if `0 ≤ y 0 + δ - x 0`, or the radii decide, the points are not exchanged
    have noswap : ∀ δ, (0 ≤ y 0 + δ - x 0 ∨ metric = .schwarzschild ∧ (|x 1| < rS ∨ |y 1| < rS)) → (metric = .schwarzschild → (|x 1| < rS ∨ |y 1| < rS) → |y 1| ≤ |x 1|) →
        ¬ bhSwap metric rS x (later y δ) := by
      intro δ h' hrad
      rw [sw]
      rintro (⟨g1, g2, g3⟩ | ⟨g1, g2⟩)
      · linarith [hrad g1 g2]
      · rcases h' with h' | h'
        · linarith
        · exact g1 h'
    split_ifs at h3 with k1 k2 k3
    · have hin : |x 1| < rS := lt_of_le_of_ne k1.2 hxS
      have il := inside_log (abs_nonneg (y 1)) k1.1 hin
      have hio : ti ≤ tOut ∧ (metric ≠ .schwarzschild → 0 ≤ ti) := by
        by_cases hm : metric = .schwarzschild
        · subst hm
          rw [if_pos rfl] at hti
          rw [← hti, htOut, f1, f1]
          unfold rayTime
          exact ⟨by linarith, fun h => absurd rfl h⟩
        · rw [if_neg hm] at hti
          rw [← hti, htOut, f2 _ hm, f2 _ hm]
          unfold rayTime
          exact ⟨by linarith, fun _ => by linarith [k1.1]⟩
      refine ⟨max ti (min tOut (y 0 - x 0)) - (y 0 - x 0), ?_, (ex _).2 ⟨noswap _ ?_ (fun _ _ => k1.1), ?_⟩⟩
      · rw [abs_le]
        constructor
        · have : min tOut (y 0 - x 0) ≤ max ti (min tOut (y 0 - x 0)) := le_max_right _ _
          rcases min_choice tOut (y 0 - x 0) with e | e <;> rw [e] at this ⊢ <;> linarith [h3.1]
        · rcases max_choice ti (min tOut (y 0 - x 0)) with e | e <;> rw [e]
          · linarith [h3.2]
          · linarith [min_le_right tOut (y 0 - x 0)]
      · by_cases hm : metric = .schwarzschild
        · exact Or.inr ⟨hm, Or.inl hin⟩
        · left
          have := le_max_left ti (min tOut (y 0 - x 0))
          linarith [hio.2 hm]
      · rw [if_pos k1]
        constructor
        · have : max ti (min tOut (y 0 - x 0)) ≤ tOut := max_le hio.1 (min_le_left _ _)
          linarith
        · linarith [le_max_left ti (min tOut (y 0 - x 0))]
    · have hout : rS < |x 1| := lt_of_le_of_ne k2.1 (Ne.symm hxS)
      refine ⟨max ti (y 0 - x 0) - (y 0 - x 0), ?_, (ex _).2 ⟨noswap _ ?_ (fun _ _ => k2.2), ?_⟩⟩
      · rw [abs_of_nonneg (by linarith [le_max_right ti (y 0 - x 0)])]
        rcases max_choice ti (y 0 - x 0) with e | e <;> rw [e] <;> linarith
      · by_cases hm : metric = .schwarzschild ∧ |y 1| < rS
        · exact Or.inr ⟨hm.1, Or.inr hm.2⟩
        · left
          have h5 : 0 ≤ ti := by
            by_cases hm' : metric = .schwarzschild
            · have hyo : rS < |y 1| := lt_of_le_of_ne (not_lt.1 fun h' => hm ⟨hm', h'⟩) (Ne.symm hyS)
              subst hm'
              rw [if_pos rfl] at hti
              have := rayTime_mono (k := 1) one_pos hS hyo k2.2
              rw [← hti, htOut, f1, f1]
              linarith
            · rw [if_neg hm'] at hti
              rw [← hti]
              linarith [k2.2]
          linarith [le_max_left ti (y 0 - x 0)]
      · rw [if_neg k1, if_pos k2]
        linarith [le_max_left ti (y 0 - x 0)]
    · have hout : rS < |x 1| := lt_of_le_of_ne k3.1 (Ne.symm hxS)
      have hmon : 0 ≤ tOut := by
        by_cases hm : metric = .schwarzschild
        · subst hm
          rw [htOut, f1, f1]
          linarith [rayTime_mono (k := 1) one_pos hS hout k3.2]
        · rw [htOut, f2 _ hm, f2 _ hm]
          linarith [rayTime_mono (k := 2) two_pos hS hout k3.2]
      refine ⟨max tOut (y 0 - x 0) - (y 0 - x 0), ?_, (ex _).2 ⟨noswap _ (Or.inl ?_) (fun _ h' => ?_), ?_⟩⟩
      · rw [abs_of_nonneg (by linarith [le_max_right tOut (y 0 - x 0)])]
        rcases max_choice tOut (y 0 - x 0) with e | e <;> rw [e] <;> linarith
      · linarith [le_max_left tOut (y 0 - x 0)]
      · rcases h' with h' | h' <;> linarith [k3.2]
      · rw [if_neg k1, if_neg k2, if_pos k3]
        linarith [le_max_left tOut (y 0 - x 0)]


/-- the hypotheses of `C120_BH_accuracy` are met: outside of a black hole of radius 1, from radius 2 to radius 3 in the time 10 -/
example (np2 : Bool) : ((npIEEE np2).causalityBH32 (fun z => rnd64 (Real.log z)) .eddingtonFinkelstein 1 (lineP 0 2) (lineP 10 3)).1 = true := by
  have m2 : (2 : ℝ) ∈ Binary32 := ⟨2, 0, by norm_num, by norm_num, by simp⟩
  have m3 : (3 : ℝ) ∈ Binary32 := ⟨3, 0, by norm_num, by norm_num, by simp⟩
  have l2 : abs (Real.log 2) ≤ 1 := by rw [abs_of_pos (Real.log_pos one_lt_two)]; linarith [Real.log_two_lt_d9]
  have n2 : abs (|(2 : ℝ)| / 1 - 1) = 1 := by norm_num
  have n3 : abs (|(3 : ℝ)| / 1 - 1) = 2 := by norm_num
  refine (C120_BH_accuracy (C119_ieee np2) (fun z => rnd64 (Real.log z)) (fun z _ => ?_) .eddingtonFinkelstein 4 1 1 1 10 one_pos (by norm_num) one_pos le_rfl
    (lineP 0 2) (lineP 10 3) (by simp [lineP]) (by simp [lineP]) ?_ ?_ (by unfold bhQ32; norm_num) (by unfold bhErr32 bhQ32; norm_num)).1 fun δ hδ => ?_
  · have := C104_ieee.err' (Real.log z)
    refine this.trans (mul_le_mul_of_nonneg_right (show ulp ≤ 2 / 2 ^ 24 by unfold ulp; norm_num) (by positivity))
  · simp only [lineP, if_true, one_ne_zero, if_false]
    rw [n2]
    exact ⟨by rwa [abs_of_pos two_pos], by norm_num, le_rfl, by rw [Real.log_one, abs_zero]; norm_num⟩
  · simp only [lineP, if_true, one_ne_zero, if_false]
    rw [n3]
    exact ⟨by rwa [abs_of_pos (by norm_num)], by norm_num, by norm_num, l2⟩
  · have h1 : |δ| ≤ 1 := hδ.trans (by unfold bhErr32 bhQ32; norm_num)
    have h2 := abs_le.1 h1
    rw [C44_EF one_pos _ _ (by simp [lineP]) (by simp [later, lineP])]
    unfold EFLe rayTime
    simp only [later, lineP, if_true, one_ne_zero, if_false]
    rw [n2, n3, Real.log_one]
    have h3 := Real.log_two_lt_d9
    refine ⟨by norm_num, by rw [abs_of_pos (by norm_num : (0 : ℝ) < 2), abs_of_pos (by norm_num : (0 : ℝ) < 3)]; linarith, fun h => absurd h (by norm_num), fun _ _ => ?_⟩
    rw [abs_of_pos (by norm_num : (0 : ℝ) < 2), abs_of_pos (by norm_num : (0 : ℝ) < 3)]
    linarith

/-- **C120, infall.** In Eddington–Finkelstein coordinates rounding never loses a causal relation that leads inwards from the outside: it does not depend on the logarithm (outside of the exact and
of the converted Schwarzschild radius). -/
theorem C120_BH_infall (hA : A.Accurate) (log : ℝ → ℝ) {rS : ℝ} (x y : Point) (ho : rS < |x 1|) (ho' : A.mix rS < |x 1|) (hi : |y 1| ≤ |x 1|) (h : EFLe rS x y) :
    (A.causalityBH32 log .eddingtonFinkelstein rS x y).1 = true := by
  rw [(bh32_form hA log _ rS x y).1]
  have h0 : 0 ≤ y 0 - x 0 := by linarith [h.2.1]
  refine ⟨hA.err32.nonneg _ h.1, ?_, ?_⟩
  · unfold bhSwap32
    simp only [reduceCtorEq, false_and, not_false_eq_true, true_and, false_or, not_lt]
    exact hA.err32.nonneg _ h0
  · unfold bhTest32
    dsimp only
    rw [if_neg (by rintro ⟨_, h'⟩; linarith), if_pos ⟨ho'.le, hi⟩, if_neg (by simp)]
    exact hA.err32.mono _ _ h.2.1

/-- the hypotheses of `C120_BH_infall` are met: a light ray falls from the radius 3 to the radius 2 of a black hole of radius 1 -/
example (np2 : Bool) (log : ℝ → ℝ) : ((npIEEE np2).causalityBH32 log .eddingtonFinkelstein 1 (lineP 0 3) (lineP 1 2)).1 = true := by
  have m1 : (1 : ℝ) ∈ Binary32 := ⟨1, 0, by norm_num, by norm_num, by simp⟩
  have hm : (npIEEE np2).mix 1 = 1 := (C119_ieee np2).mix_fix m1
  refine C120_BH_infall (C119_ieee np2) log _ _ (by simp [lineP]) (by rw [hm]; simp [lineP]) (by simp [lineP]; norm_num) ?_
  have a2 : |(2 : ℝ)| = 2 := abs_of_pos two_pos
  have a3 : |(3 : ℝ)| = 3 := abs_of_pos (by norm_num)
  unfold EFLe rayTime
  simp only [lineP, if_true, one_ne_zero, if_false, a2, a3]
  refine ⟨by norm_num, by norm_num, fun h => absurd h (by norm_num), fun _ _ => ?_⟩
  have n2 : |(2 : ℝ) / 1 - 1| = 1 := by norm_num
  have n3 : |(3 : ℝ) / 1 - 1| = 2 := by norm_num
  rw [n2, n3, Real.log_one]
  have := Real.log_pos one_lt_two
  linarith

/-- **C120, sides of a black hole.** Points on different sides of a black hole get no answer, unless the product of their radii underflows in single precision. -/
theorem C120_BH_sides (hA : A.Accurate) (log : ℝ → ℝ) (metric : BHMetric) (rS : ℝ) (x y : Point) (h : x 1 * y 1 < -(2 : ℝ) ^ (-150 : ℤ)) :
    A.causalityBH32 log metric rS x y = (false, false) := by
  have hneg : A.r32 (x 1 * y 1) < 0 := by
    set z := x 1 * y 1
    have hp : (0 : ℝ) < 2 ^ (-150 : ℤ) := by positivity
    have e2 : (2 : ℝ) ^ (-149 : ℤ) = 2 * 2 ^ (-150 : ℤ) := by
      rw [show (-149 : ℤ) = 1 + -150 by norm_num, zpow_add₀ (by norm_num)]; norm_num
    by_contra hc
    push Not at hc
    have hm : -(2 : ℝ) ^ (-149 : ℤ) ∈ Binary32 := ⟨-1, -149, by norm_num, by norm_num, by push_cast; ring⟩
    have h1 := hA.r32.nearest z _ hm
    rw [abs_of_pos (by linarith), e2] at h1
    rcases le_or_gt z (-(2 * 2 ^ (-150 : ℤ))) with h2 | h2
    · rw [abs_of_nonneg (by linarith)] at h1; linarith
    · rw [abs_of_neg (by linarith)] at h1; linarith
  unfold NpArith.causalityBH32
  have : test (A.r32 (x 1 * y 1) < 0) = true := by simp [test, hneg]
  rw [this]
  simp

end Causets
