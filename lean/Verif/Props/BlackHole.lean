import Verif.Props.Curved

/-! # C44 — black hole spacetimes (Eddington–Finkelstein and Schwarzschild coordinates) -/

namespace Causets

/-- **Specification.** The function whose differences are the travel times of outgoing light rays (for Schwarzschild coordinates also of
ingoing ones): `r + k * r_S * log |r / r_S - 1|` with `k = 2` (Eddington–Finkelstein) or `k = 1` (Schwarzschild). -/
noncomputable def rayTime (k rS r : ℝ) : ℝ := r + k * rS * Real.log |r / rS - 1|

/-- **Specification.** Causal order in Eddington–Finkelstein coordinates off the horizon: same side; not before the ingoing light ray of `x`
arrives; from the inside only inwards, and not after the (inwards moving) "outgoing" ray; from outside to outside not before the outgoing
ray arrives. -/
def EFLe (rS : ℝ) (x y : Point) : Prop :=
  0 ≤ x 1 * y 1 ∧ |x 1| - |y 1| ≤ y 0 - x 0 ∧
  (|x 1| < rS → |y 1| ≤ |x 1| ∧ y 0 - x 0 ≤ rayTime 2 rS |y 1| - rayTime 2 rS |x 1|) ∧
  (rS < |x 1| → rS < |y 1| → rayTime 2 rS |y 1| - rayTime 2 rS |x 1| ≤ y 0 - x 0)

/-- **Specification.** Causal order in Schwarzschild coordinates off the horizon: same side; outside not before a light ray can arrive; into the
black hole not before the ingoing light ray; inside only inwards, between the two light rays. -/
def SchwarzschildLe (rS : ℝ) (x y : Point) : Prop :=
  0 ≤ x 1 * y 1 ∧
  (|x 1| < rS → |y 1| ≤ |x 1| ∧ |y 0 - x 0| ≤ rayTime 1 rS |y 1| - rayTime 1 rS |x 1|) ∧
  (rS < |x 1| → |y 1| < rS → rayTime 1 rS |x 1| - rayTime 1 rS |y 1| ≤ y 0 - x 0) ∧
  (rS < |x 1| → rS < |y 1| → abs (rayTime 1 rS |y 1| - rayTime 1 rS |x 1|) ≤ y 0 - x 0)

theorem rayTime_strictMono {k rS : ℝ} (hk : 0 < k) (hS : 0 < rS) {r r' : ℝ} (h : rS < r) (h' : r < r') : rayTime k rS r < rayTime k rS r' := by
  unfold rayTime
  have h1 : 0 < r / rS - 1 := by rw [sub_pos, lt_div_iff₀ hS]; linarith
  have h2 : r / rS - 1 < r' / rS - 1 := by
    have := div_lt_div_of_pos_right h' hS
    linarith
  rw [abs_of_pos h1, abs_of_pos (h1.trans h2)]
  have h3 := Real.log_lt_log h1 h2
  have : k * rS * Real.log (r / rS - 1) < k * rS * Real.log (r' / rS - 1) := mul_lt_mul_of_pos_left h3 (mul_pos hk hS)
  linarith

theorem rayTime_mono {k rS : ℝ} (hk : 0 < k) (hS : 0 < rS) {r r' : ℝ} (h : rS < r) (h' : r ≤ r') : rayTime k rS r ≤ rayTime k rS r' := by
  rcases h'.lt_or_eq with h1 | h1
  · exact (rayTime_strictMono hk hS h h1).le
  · rw [h1]

theorem light_eq {rS : ℝ} (hS : 0 < rS) (r : ℝ) : lightEF rS 0 0 false r = rayTime 2 rS r ∧ lightS rS 0 0 false r = rayTime 1 rS r := by
  have e : |(r - rS) / (0 - rS)| = |r / rS - 1| := by
    have : (r - rS) / (0 - rS) = -(r / rS - 1) := by rw [zero_sub, div_neg, sub_div, div_self hS.ne']
    rw [this, abs_neg]
  unfold lightEF lightS rayTime
  simp only [Bool.false_eq_true, if_false]
  rw [e]
  constructor <;> ring

/-- the test after the optional exchange of the points -/
noncomputable def bhTest (metric : BHMetric) (rS : ℝ) (x y : Point) : Prop :=
  let f := fun r => if metric = .schwarzschild then rayTime 1 rS r else rayTime 2 rS r
  let tOut := f |y 1| - f |x 1|
  let tIn := if metric = .schwarzschild then -tOut else |x 1| - |y 1|
  if |y 1| ≤ |x 1| ∧ |x 1| ≤ rS then tOut ≥ y 0 - x 0 ∧ y 0 - x 0 ≥ tIn
  else if rS ≤ |x 1| ∧ |x 1| ≥ |y 1| then y 0 - x 0 ≥ tIn
  else if rS ≤ |x 1| ∧ |x 1| ≤ |y 1| then y 0 - x 0 ≥ tOut
  else False

/-- are the points exchanged? -/
def bhSwap (metric : BHMetric) (rS : ℝ) (x y : Point) : Prop :=
  (metric = .schwarzschild ∧ (|x 1| < rS ∨ |y 1| < rS) ∧ |x 1| < |y 1|) ∨
  (¬ (metric = .schwarzschild ∧ (|x 1| < rS ∨ |y 1| < rS)) ∧ y 0 - x 0 < 0)

theorem bhSwap_asymm {metric : BHMetric} {rS : ℝ} {x y : Point} (h : bhSwap metric rS x y) : ¬ bhSwap metric rS y x := by
  unfold bhSwap at *
  rintro (⟨h1, h2, h3⟩ | ⟨h1, h2⟩)
  · rcases h with ⟨_, _, h4⟩ | ⟨h4, _⟩
    · linarith
    · exact h4 ⟨h1, h2.symm⟩
  · rcases h with ⟨h3, h4, h5⟩ | ⟨_, h4⟩
    · exact h1 ⟨h3, h4.symm⟩
    · linarith

open Classical in
theorem bh_form (metric : BHMetric) {rS : ℝ} (hS : 0 < rS) (x y : Point) :
    ((causalityBH metric rS x y).1 = true ↔ 0 ≤ x 1 * y 1 ∧ ¬ bhSwap metric rS x y ∧ bhTest metric rS x y) ∧
    ((causalityBH metric rS x y).2 = true ↔ 0 ≤ x 1 * y 1 ∧ bhSwap metric rS x y ∧ bhTest metric rS y x) := by
  have hf : (if metric = .schwarzschild then lightS rS 0 0 false else lightEF rS 0 0 false) =
      fun r => if metric = .schwarzschild then rayTime 1 rS r else rayTime 2 rS r := by
    funext r
    split
    · exact (light_eq hS r).2
    · exact (light_eq hS r).1
  unfold causalityBH
  dsimp only
  rw [hf]
  by_cases hp : x 1 * y 1 < 0
  · simp [test, hp]
  · have hp' : 0 ≤ x 1 * y 1 := not_lt.1 hp
    have hsw : (if test (metric = .schwarzschild ∧ (|x 1| < rS ∨ |y 1| < rS)) then test (|x 1| < |y 1|) else test (y 0 - x 0 < 0)) =
        test (bhSwap metric rS x y) := by
      unfold bhSwap
      by_cases h1 : metric = .schwarzschild ∧ (|x 1| < rS ∨ |y 1| < rS)
      · simp [test, h1]
      · have h2 : ¬ (metric = .schwarzschild ∧ (|x 1| < rS ∨ |y 1| < rS) ∧ |x 1| < |y 1|) := fun h => h1 ⟨h.1, h.2.1⟩
        simp only [test, h1, h2, decide_false, Bool.false_eq_true, if_false, not_false_eq_true, true_and, false_or]
    rw [hsw]
    have hp0 : test (x 1 * y 1 < 0) = false := by simp [test, hp']
    rw [hp0]
    simp only [Bool.false_eq_true, if_false]
    by_cases h1 : bhSwap metric rS x y
    · have : test (bhSwap metric rS x y) = true := by simp [test, h1]
      rw [this]
      simp only [if_true, Bool.false_eq_true, false_iff, hp', true_and, h1, not_true, false_and, not_false_eq_true]
      unfold bhTest
      dsimp only
      rw [neg_sub]
      by_cases c1 : |x 1| ≤ |y 1| ∧ |y 1| ≤ rS
      · simp [test, c1]
      · by_cases c2 : rS ≤ |y 1| ∧ |y 1| ≥ |x 1|
        · simp [test, c1, c2]
        · by_cases c3 : rS ≤ |y 1| ∧ |y 1| ≤ |x 1| <;> simp [test, c1, c2, c3]
    · have : test (bhSwap metric rS x y) = false := by simp [test, h1]
      rw [this]
      simp only [Bool.false_eq_true, if_false, false_iff, hp', true_and, h1, false_and, not_false_eq_true]
      unfold bhTest
      dsimp only
      by_cases c1 : |y 1| ≤ |x 1| ∧ |x 1| ≤ rS
      · simp [test, c1]
      · by_cases c2 : rS ≤ |x 1| ∧ |x 1| ≥ |y 1|
        · simp [test, c1, c2]
        · by_cases c3 : rS ≤ |x 1| ∧ |x 1| ≤ |y 1| <;> simp [test, c1, c2, c3]

/-- **C44, Eddington–Finkelstein.** For points off the horizon, "first precedes second" is exactly the causal order. -/
theorem C44_EF {rS : ℝ} (hS : 0 < rS) (x y : Point) (hx : |x 1| ≠ rS) (hy : |y 1| ≠ rS) :
    (causalityBH .eddingtonFinkelstein rS x y).1 = true ↔ EFLe rS x y := by
  rw [(bh_form _ hS x y).1]
  have hsw : bhSwap .eddingtonFinkelstein rS x y ↔ y 0 - x 0 < 0 := by unfold bhSwap; simp
  rw [hsw]
  unfold bhTest EFLe
  simp only [reduceCtorEq, if_false]
  refine and_congr_right fun hp => ?_
  rcases lt_or_gt_of_ne hx with h1 | h1
  · by_cases h2 : |y 1| ≤ |x 1|
    · rw [if_pos ⟨h2, h1.le⟩]
      constructor
      · rintro ⟨a, b, d⟩
        exact ⟨d, fun _ => ⟨h2, b⟩, fun h => absurd h (not_lt.2 h1.le)⟩
      · rintro ⟨a, b, -⟩
        exact ⟨by linarith, (b h1).2, a⟩
    · rw [if_neg (fun h => h2 h.1), if_neg (fun h => absurd h.1 (not_le.2 h1)), if_neg (fun h => absurd h.1 (not_le.2 h1))]
      constructor
      · rintro ⟨_, h⟩; exact h.elim
      · rintro ⟨-, b, -⟩; exact absurd (b h1).1 h2
  · rw [if_neg (fun h => absurd h.2 (not_le.2 h1))]
    by_cases h2 : |y 1| ≤ |x 1|
    · rw [if_pos ⟨h1.le, h2⟩]
      constructor
      · rintro ⟨a, b⟩
        refine ⟨b, fun h => absurd h (not_lt.2 h1.le), fun _ hy' => ?_⟩
        have := rayTime_mono (k := 2) (by norm_num) hS hy' h2
        linarith
      · rintro ⟨a, -, -⟩
        exact ⟨by linarith, a⟩
    · push Not at h2
      rw [if_neg (fun h => absurd h.2 (not_le.2 h2)), if_pos ⟨h1.le, h2.le⟩]
      constructor
      · rintro ⟨a, b⟩
        exact ⟨by linarith, fun h => absurd h (not_lt.2 h1.le), fun _ _ => b⟩
      · rintro ⟨a, -, d⟩
        have := rayTime_mono (k := 2) (by norm_num) hS h1 h2.le
        have := d h1 (h1.trans h2)
        exact ⟨by linarith, this⟩

theorem EFLe.time {rS : ℝ} (hS : 0 < rS) {x y : Point} (hx : |x 1| ≠ rS) (h : EFLe rS x y) : 0 ≤ y 0 - x 0 := by
  obtain ⟨-, h1, h2, h3⟩ := h
  rcases lt_or_gt_of_ne hx with h4 | h4
  · linarith [(h2 h4).1]
  · by_cases h5 : |y 1| ≤ |x 1|
    · linarith
    · push Not at h5
      have := rayTime_mono (k := 2) (by norm_num) hS h4 h5.le
      linarith [h3 h4 (h4.trans h5)]

theorem same_side_trans {a b c : ℝ} (hab : 0 ≤ a * b) (hbc : 0 ≤ b * c) (hb : b = 0 → c = 0) : 0 ≤ a * c := by
  rcases lt_trichotomy b 0 with h | h | h
  · have h1 : a ≤ 0 := by by_contra h'; push Not at h'; nlinarith
    have h2 : c ≤ 0 := by by_contra h'; push Not at h'; nlinarith
    nlinarith
  · rw [hb h]; simp
  · have h1 : 0 ≤ a := by by_contra h'; push Not at h'; nlinarith
    have h2 : 0 ≤ c := by by_contra h'; push Not at h'; nlinarith
    exact mul_nonneg h1 h2

theorem EFLe.trans {rS : ℝ} (hS : 0 < rS) {x y z : Point} (hx : |x 1| ≠ rS) (hy : |y 1| ≠ rS)
    (h1 : EFLe rS x y) (h2 : EFLe rS y z) : EFLe rS x z := by
  obtain ⟨a1, a2, a3, a4⟩ := h1
  obtain ⟨b1, b2, b3, b4⟩ := h2
  refine ⟨same_side_trans a1 b1 fun hy0 => ?_, by linarith, fun hi => ?_, fun ho hz => ?_⟩
  · have h3 : |y 1| < rS := by rw [hy0]; simpa using hS
    have := (b3 h3).1
    rw [hy0, abs_zero] at this
    exact abs_eq_zero.1 (le_antisymm this (abs_nonneg _))
  · obtain ⟨c1, c2⟩ := a3 hi
    obtain ⟨d1, d2⟩ := b3 (lt_of_le_of_lt c1 hi)
    exact ⟨d1.trans c1, by linarith⟩
  · have hyo : rS < |y 1| := by
      rcases lt_or_gt_of_ne hy with h | h
      · exact absurd (lt_of_le_of_lt (b3 h).1 h) (not_lt.2 hz.le)
      · exact h
    linarith [a4 ho hyo, b4 hyo hz]

/-- **C44, Eddington–Finkelstein.** Off the horizon the causality function describes a causal order that respects the time coordinate. -/
theorem C44_EF_order {rS : ℝ} (hS : 0 < rS) : IsCausalOrder (causalityBH .eddingtonFinkelstein rS) {x | |x 1| ≠ rS} ∧
    ∀ x y : Point, (causalityBH .eddingtonFinkelstein rS x y).1 = true → x 0 ≤ y 0 := by
  have hsw : ∀ x y, bhSwap .eddingtonFinkelstein rS x y ↔ y 0 - x 0 < 0 := fun x y => by unfold bhSwap; simp
  refine ⟨⟨fun x hx y hy z hz h1 h2 => ?_, fun x hx y hy => ?_⟩, fun x y h => ?_⟩
  · rw [C44_EF hS x y hx hy] at h1
    rw [C44_EF hS y z hy hz] at h2
    rw [C44_EF hS x z hx hz]
    exact h1.trans hS hx hy h2
  · rw [(bh_form _ hS x y).2, hsw, ← Bool.not_eq_true, C44_EF hS x y hx hy]
    have e : 0 ≤ x 1 * y 1 ∧ y 0 - x 0 < 0 ∧ bhTest .eddingtonFinkelstein rS y x ↔ y 0 - x 0 < 0 ∧ EFLe rS y x := by
      rw [← C44_EF hS y x hy hx, (bh_form _ hS y x).1, hsw, mul_comm (y 1)]
      constructor
      · rintro ⟨h1, h2, h3⟩; exact ⟨h2, h1, by linarith, h3⟩
      · rintro ⟨h2, h1, -, h3⟩; exact ⟨h1, h2, h3⟩
    rw [e, C44_EF hS y x hy hx]
    constructor
    · rintro ⟨h1, h2⟩
      exact ⟨h2, fun h3 => by linarith [h3.time hS hx]⟩
    · rintro ⟨h2, h3⟩
      refine ⟨?_, h2⟩
      by_contra h4
      have h5 := h2.time hS hy
      have h0 : y 0 - x 0 = 0 := by linarith
      obtain ⟨g1, g2, g3, g4⟩ := h2
      have hr : |x 1| = |y 1| := by
        rcases lt_or_gt_of_ne hy with h | h
        · linarith [(g3 h).1]
        · have : |y 1| ≤ |x 1| := by linarith
          rcases this.lt_or_eq with h6 | h6
          · have := rayTime_strictMono (k := 2) (by norm_num) hS h h6
            linarith [g4 h (h.trans h6)]
          · exact h6.symm
      refine h3 ⟨by rw [mul_comm]; exact g1, by rw [hr, h0]; simp, fun _ => ⟨hr ▸ le_refl _, by rw [hr, h0]; simp⟩, fun _ _ => ?_⟩
      rw [hr, h0]; simp
  · rw [(bh_form _ hS x y).1, hsw] at h
    linarith [h.2.1]

/-- **C44, Schwarzschild.** For points off the horizon, "first precedes second" is exactly the causal order. -/
theorem C44_Schwarzschild {rS : ℝ} (hS : 0 < rS) (x y : Point) (hx : |x 1| ≠ rS) (hy : |y 1| ≠ rS) :
    (causalityBH .schwarzschild rS x y).1 = true ↔ SchwarzschildLe rS x y := by
  rw [(bh_form _ hS x y).1]
  unfold bhTest SchwarzschildLe
  simp only [if_true]
  refine and_congr_right fun hp => ?_
  rcases lt_or_gt_of_ne hx with h1 | h1
  · have hsw : bhSwap .schwarzschild rS x y ↔ |x 1| < |y 1| := by unfold bhSwap; simp [h1]
    rw [hsw]
    by_cases h2 : |y 1| ≤ |x 1|
    · rw [if_pos ⟨h2, h1.le⟩]
      constructor
      · rintro ⟨a, b, d⟩
        exact ⟨fun _ => ⟨h2, abs_le.2 ⟨by linarith, b⟩⟩, fun h => absurd h (not_lt.2 h1.le), fun h => absurd h (not_lt.2 h1.le)⟩
      · rintro ⟨a, -, -⟩
        obtain ⟨b, d⟩ := abs_le.1 (a h1).2
        exact ⟨not_lt.2 h2, d, by linarith⟩
    · rw [if_neg (fun h => h2 h.1), if_neg (fun h => absurd h.1 (not_le.2 h1)), if_neg (fun h => absurd h.1 (not_le.2 h1))]
      constructor
      · rintro ⟨_, h⟩; exact h.elim
      · rintro ⟨b, -⟩; exact absurd (b h1).1 h2
  · rw [if_neg (fun h => absurd h.2 (not_le.2 h1))]
    rcases lt_or_gt_of_ne hy with h3 | h3
    · have hsw : bhSwap .schwarzschild rS x y ↔ |x 1| < |y 1| := by unfold bhSwap; simp [h3]
      rw [hsw, if_pos ⟨h1.le, (h3.trans h1).le⟩]
      constructor
      · rintro ⟨a, b⟩
        exact ⟨fun h => absurd h (not_lt.2 h1.le), fun _ _ => by linarith, fun _ h => absurd h (not_lt.2 h3.le)⟩
      · rintro ⟨-, a, -⟩
        exact ⟨not_lt.2 (h3.trans h1).le, by linarith [a h1 h3]⟩
    · have hsw : bhSwap .schwarzschild rS x y ↔ y 0 - x 0 < 0 := by unfold bhSwap; simp [h1.le, h3.le]
      rw [hsw]
      by_cases h2 : |y 1| ≤ |x 1|
      · rw [if_pos ⟨h1.le, h2⟩]
        have := rayTime_mono (k := 1) (by norm_num) hS h3 h2
        constructor
        · rintro ⟨a, b⟩
          exact ⟨fun h => absurd h (not_lt.2 h1.le), fun _ h => absurd h (not_lt.2 h3.le), fun _ _ => abs_le.2 ⟨by linarith, by linarith⟩⟩
        · rintro ⟨-, -, a⟩
          obtain ⟨b, d⟩ := abs_le.1 (a h1 h3)
          exact ⟨by linarith, by linarith⟩
      · push Not at h2
        have := rayTime_mono (k := 1) (by norm_num) hS h1 h2.le
        rw [if_neg (fun h => absurd h.2 (not_le.2 h2)), if_pos ⟨h1.le, h2.le⟩]
        constructor
        · rintro ⟨a, b⟩
          exact ⟨fun h => absurd h (not_lt.2 h1.le), fun _ h => absurd h (not_lt.2 h3.le), fun _ _ => abs_le.2 ⟨by linarith, by linarith⟩⟩
        · rintro ⟨-, -, a⟩
          obtain ⟨b, d⟩ := abs_le.1 (a h1 h3)
          exact ⟨by linarith, by linarith⟩

theorem SchwarzschildLe.trans {rS : ℝ} (hS : 0 < rS) {x y z : Point} (hy : |y 1| ≠ rS)
    (h1 : SchwarzschildLe rS x y) (h2 : SchwarzschildLe rS y z) : SchwarzschildLe rS x z := by
  obtain ⟨a1, a2, a3, a4⟩ := h1
  obtain ⟨b1, b2, b3, b4⟩ := h2
  refine ⟨same_side_trans a1 b1 fun hy0 => ?_, fun hi => ?_, fun ho hz => ?_, fun ho hz => ?_⟩
  · have h3 : |y 1| < rS := by rw [hy0]; simpa using hS
    have := (b2 h3).1
    rw [hy0, abs_zero] at this
    exact abs_eq_zero.1 (le_antisymm this (abs_nonneg _))
  · obtain ⟨c1, c2⟩ := a2 hi
    obtain ⟨d1, d2⟩ := b2 (lt_of_le_of_lt c1 hi)
    obtain ⟨c3, c4⟩ := abs_le.1 c2
    obtain ⟨d3, d4⟩ := abs_le.1 d2
    exact ⟨d1.trans c1, abs_le.2 ⟨by linarith, by linarith⟩⟩
  · rcases lt_or_gt_of_ne hy with h | h
    · obtain ⟨d3, d4⟩ := abs_le.1 (b2 h).2
      linarith [a3 ho h]
    · obtain ⟨d3, d4⟩ := abs_le.1 (a4 ho h)
      linarith [b3 h hz]
  · rcases lt_or_gt_of_ne hy with h | h
    · exact absurd (lt_of_le_of_lt (b2 h).1 h) (not_lt.2 hz.le)
    · obtain ⟨c3, c4⟩ := abs_le.1 (a4 ho h)
      obtain ⟨d3, d4⟩ := abs_le.1 (b4 h hz)
      exact abs_le.2 ⟨by linarith, by linarith⟩

/-- **C44, Schwarzschild.** Off the horizon the causality function describes a causal order. -/
theorem C44_Schwarzschild_order {rS : ℝ} (hS : 0 < rS) : IsCausalOrder (causalityBH .schwarzschild rS) {x | |x 1| ≠ rS} := by
  refine ⟨fun x hx y hy z hz h1 h2 => ?_, fun x hx y hy => ?_⟩
  · rw [C44_Schwarzschild hS x y hx hy] at h1
    rw [C44_Schwarzschild hS y z hy hz] at h2
    rw [C44_Schwarzschild hS x z hx hz]
    exact h1.trans hS hy h2
  · have hle : ∀ x y : Point, |x 1| ≠ rS → |y 1| ≠ rS → SchwarzschildLe rS x y → ¬ bhSwap .schwarzschild rS x y := by
      intro x y hx hy h
      rw [← C44_Schwarzschild hS x y hx hy, (bh_form _ hS x y).1] at h
      exact h.2.1
    rw [(bh_form _ hS x y).2, ← Bool.not_eq_true, C44_Schwarzschild hS x y hx hy]
    have e : 0 ≤ x 1 * y 1 ∧ bhSwap .schwarzschild rS x y ∧ bhTest .schwarzschild rS y x ↔
        bhSwap .schwarzschild rS x y ∧ SchwarzschildLe rS y x := by
      rw [← C44_Schwarzschild hS y x hy hx, (bh_form _ hS y x).1, mul_comm (y 1)]
      constructor
      · rintro ⟨h1, h2, h3⟩; exact ⟨h2, h1, bhSwap_asymm h2, h3⟩
      · rintro ⟨h2, h1, -, h3⟩; exact ⟨h1, h2, h3⟩
    rw [e, C44_Schwarzschild hS y x hy hx]
    constructor
    · rintro ⟨h1, h2⟩
      exact ⟨h2, fun h3 => hle x y hx hy h3 h1⟩
    · rintro ⟨h2, h3⟩
      refine ⟨?_, h2⟩
      by_contra h4
      have h5 := hle y x hy hx h2
      obtain ⟨g1, g2, g3, g4⟩ := h2
      -- same radius and time
      have key : |x 1| = |y 1| ∧ y 0 - x 0 = 0 := by
        rcases lt_or_gt_of_ne hy with h | h
        · have h6 := (g2 h).1
          have hx' : |x 1| < rS := lt_of_le_of_lt h6 h
          have h7 : |x 1| = |y 1| := by
            rcases h6.lt_or_eq with h8 | h8
            · exact absurd (Or.inl ⟨rfl, Or.inl hx', h8⟩) h4
            · exact h8
          refine ⟨h7, ?_⟩
          have := (g2 h).2
          rw [h7, sub_self] at this
          have := abs_eq_zero.1 (le_antisymm this (abs_nonneg _))
          linarith
        · rcases lt_or_gt_of_ne hx with h' | h'
          · exact absurd (Or.inl ⟨rfl, Or.inl h', h'.trans h⟩) h4
          · have hn : ¬ (BHMetric.schwarzschild = .schwarzschild ∧ (|x 1| < rS ∨ |y 1| < rS)) := by
              rintro ⟨-, h6 | h6⟩ <;> linarith
            have hn' : ¬ (BHMetric.schwarzschild = .schwarzschild ∧ (|y 1| < rS ∨ |x 1| < rS)) := by
              rintro ⟨-, h6 | h6⟩ <;> linarith
            have h6 : ¬ (y 0 - x 0 < 0) := fun h7 => h4 (Or.inr ⟨hn, h7⟩)
            have h7 : ¬ (x 0 - y 0 < 0) := fun h7 => h5 (Or.inr ⟨hn', h7⟩)
            have h0 : y 0 - x 0 = 0 := by linarith
            refine ⟨?_, h0⟩
            have h8 := g4 h h'
            have h9 : x 0 - y 0 = 0 := by linarith
            rw [h9] at h8
            have h10 := abs_eq_zero.1 (le_antisymm h8 (abs_nonneg _))
            rcases lt_trichotomy |x 1| |y 1| with h11 | h11 | h11
            · have := rayTime_strictMono (k := 1) (by norm_num) hS h' h11
              linarith
            · exact h11
            · have := rayTime_strictMono (k := 1) (by norm_num) hS h h11
              linarith
      obtain ⟨hr, h0⟩ := key
      refine h3 ⟨by rw [mul_comm]; exact g1, fun _ => ⟨hr ▸ le_refl _, by rw [hr, h0]; simp⟩, fun h6 h7 => ?_, fun _ _ => by rw [hr, h0]; simp⟩
      rw [hr] at h6; linarith

/-- C44: points inside and outside; the outer one precedes the inner one -/
example : EFLe 1 (lineP 0 2) (lineP 3 (1 / 2)) := by
  unfold EFLe lineP
  norm_num

end Causets
