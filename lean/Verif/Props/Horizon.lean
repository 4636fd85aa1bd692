import Verif.Model.Horizon
import Verif.Props.BlackHole

/-! # C44 — black hole spacetimes, on and off the horizon -/

namespace Causets

/-- **Specification.** Causal order in Eddington–Finkelstein coordinates for all points: as off the horizon, and from the horizon (which is a light ray) only along it or inwards. -/
def EFCausal (rS : ℝ) (x y : Point) : Prop := EFLe rS x y ∧ (|x 1| = rS → |y 1| ≤ rS)

theorem lightNp_off {metric : BHMetric} {rS : ℝ} (hS : 0 < rS) {r : ℝ} (hr : r ≠ rS) :
    lightNp metric rS r = .fin (if metric = .schwarzschild then rayTime 1 rS r else rayTime 2 rS r) := by
  have h0 : |(r - rS) / (0 - rS)| ≠ 0 := by
    rw [abs_ne_zero, zero_sub]
    exact div_ne_zero (sub_ne_zero.2 hr) (neg_ne_zero.2 hS.ne')
  obtain ⟨h1, h2⟩ := light_eq hS r
  unfold lightEF at h1
  unfold lightS at h2
  simp only [Bool.false_eq_true, if_false] at h1 h2
  unfold lightNp NpReal.log
  have : test (|(r - rS) / (0 - rS)| = 0) = false := by simp only [test, decide_eq_false_iff_not]; exact h0
  rw [this]
  cases metric
  · simp [NpReal.mulFin, NpReal.addFin, ← h1]
  · simp [NpReal.mulFin, NpReal.addFin, ← h2]

theorem lightNp_on {metric : BHMetric} {rS : ℝ} (hS : 0 < rS) : lightNp metric rS rS = .ninf := by
  unfold lightNp NpReal.log
  cases metric <;> simp [test, NpReal.mulFin, NpReal.addFin, hS]

/-- the test after the optional exchange of the points -/
noncomputable def bhTestNp (metric : BHMetric) (rS : ℝ) (x y : Point) : Bool :=
  let tOut := (lightNp metric rS |y 1|).sub (lightNp metric rS |x 1|)
  let tIn := if metric = .schwarzschild then tOut.neg else .fin (|x 1| - |y 1|)
  if test (|y 1| ≤ |x 1| ∧ |x 1| ≤ rS) then tOut.ge (.fin (y 0 - x 0)) && NpReal.ge (.fin (y 0 - x 0)) tIn
  else if test (rS ≤ |x 1| ∧ |x 1| ≥ |y 1|) then NpReal.ge (.fin (y 0 - x 0)) tIn
  else if test (rS ≤ |x 1| ∧ |x 1| ≤ |y 1|) then NpReal.ge (.fin (y 0 - x 0)) tOut
  else false

open Classical in
theorem bhNp_form (metric : BHMetric) (rS : ℝ) (x y : Point) :
    ((causalityBHNp metric rS x y).1 = true ↔ 0 ≤ x 1 * y 1 ∧ ¬ bhSwap metric rS x y ∧ bhTestNp metric rS x y = true) ∧
    ((causalityBHNp metric rS x y).2 = true ↔ 0 ≤ x 1 * y 1 ∧ bhSwap metric rS x y ∧ bhTestNp metric rS y x = true) := by
  unfold causalityBHNp
  dsimp only
  by_cases hp : x 1 * y 1 < 0
  · simp [test, hp]
  · have hp' : 0 ≤ x 1 * y 1 := not_lt.1 hp
    have hsw : (if test (metric = .schwarzschild ∧ (|x 1| < rS ∨ |y 1| < rS)) then test (|x 1| < |y 1|) else test (y 0 - x 0 < 0)) =
        test (bhSwap metric rS x y) := by
      unfold bhSwap
      by_cases h1 : metric = .schwarzschild ∧ (|x 1| < rS ∨ |y 1| < rS)
      · simp [test, h1]
      · have h2 : ¬ (metric = .schwarzschild ∧ (|x 1| < rS ∨ |y 1| < rS) ∧ |x 1| < |y 1|) := fun h => h1 ⟨h.1, h.2.1⟩
        simp only [test, h1, h2, decide_false, Bool.false_eq_true, if_false, not_false_eq_true, true_and, false_or]
    rw [hsw]
    have hp0 : test (x 1 * y 1 < 0) = false := by simp [test, hp']
    rw [hp0]
    simp only [Bool.false_eq_true, if_false]
    by_cases h1 : bhSwap metric rS x y
    · have : test (bhSwap metric rS x y) = true := by simp [test, h1]
      rw [this]
      simp only [if_true, Bool.false_eq_true, false_iff, hp', true_and, h1, not_true, false_and, not_false_eq_true, neg_sub]
      rfl
    · have : test (bhSwap metric rS x y) = false := by simp [test, h1]
      rw [this]
      simp only [Bool.false_eq_true, if_false, false_iff, hp', true_and, h1, false_and, not_false_eq_true]
      exact ⟨Iff.rfl, trivial⟩

theorem bhTestNp_off (metric : BHMetric) {rS : ℝ} (hS : 0 < rS) (x y : Point) (hx : |x 1| ≠ rS) (hy : |y 1| ≠ rS) :
    bhTestNp metric rS x y = true ↔ bhTest metric rS x y := by
  unfold bhTestNp bhTest
  rw [lightNp_off hS hx, lightNp_off hS hy]
  by_cases c1 : |y 1| ≤ |x 1| ∧ |x 1| ≤ rS
  · cases metric <;> simp [test, c1, NpReal.sub, NpReal.neg, NpReal.ge]
  · by_cases c2 : rS ≤ |x 1| ∧ |x 1| ≥ |y 1|
    · cases metric <;> simp [test, c1, c2, NpReal.sub, NpReal.neg, NpReal.ge]
    · by_cases c3 : rS ≤ |x 1| ∧ |x 1| ≤ |y 1| <;> cases metric <;> simp [test, c1, c2, c3, NpReal.sub, NpReal.neg, NpReal.ge]

/-- off the horizon the values are finite, and the answers are those of `causalityBH` -/
theorem causalityBHNp_off (metric : BHMetric) {rS : ℝ} (hS : 0 < rS) (x y : Point) (hx : |x 1| ≠ rS) (hy : |y 1| ≠ rS) :
    causalityBHNp metric rS x y = causalityBH metric rS x y := by
  obtain ⟨a1, a2⟩ := bhNp_form metric rS x y
  obtain ⟨b1, b2⟩ := bh_form metric hS x y
  rw [bhTestNp_off metric hS x y hx hy, ← b1] at a1
  rw [bhTestNp_off metric hS y x hy hx, ← b2] at a2
  exact Prod.ext (Bool.eq_iff_iff.2 a1) (Bool.eq_iff_iff.2 a2)

/-- what the test says from the horizon -/
theorem bhTestNp_from (metric : BHMetric) {rS : ℝ} (hS : 0 < rS) (x y : Point) (hx : |x 1| = rS) :
    bhTestNp metric rS x y = true ↔ |y 1| < rS ∧ (metric = .eddingtonFinkelstein → rS - |y 1| ≤ y 0 - x 0) := by
  unfold bhTestNp
  rw [hx, lightNp_on hS]
  rcases lt_trichotomy |y 1| rS with h | h | h
  · rw [lightNp_off hS h.ne]
    cases metric <;> simp [test, h, h.le, NpReal.sub, NpReal.neg, NpReal.ge]
  · rw [h, lightNp_on hS]
    cases metric <;> simp [test, NpReal.sub, NpReal.neg, NpReal.ge]
  · rw [lightNp_off hS h.ne']
    cases metric <;> simp [test, h, h.le, not_le.2 h, not_lt.2 h.le, NpReal.sub, NpReal.neg, NpReal.ge]

/-- what the test says to the horizon -/
theorem bhTestNp_to (metric : BHMetric) {rS : ℝ} (hS : 0 < rS) (x y : Point) (hy : |y 1| = rS) :
    bhTestNp metric rS x y = true ↔ rS < |x 1| ∧ metric = .eddingtonFinkelstein ∧ |x 1| - rS ≤ y 0 - x 0 := by
  unfold bhTestNp
  rw [hy, lightNp_on hS]
  rcases lt_trichotomy |x 1| rS with h | h | h
  · rw [lightNp_off hS h.ne]
    cases metric <;> simp [test, h, not_le.2 h, not_lt.2 h.le, NpReal.sub, NpReal.neg, NpReal.ge]
  · rw [h, lightNp_on hS]
    cases metric <;> simp [test, NpReal.sub, NpReal.neg, NpReal.ge]
  · rw [lightNp_off hS h.ne']
    cases metric <;> simp [test, h, h.le, not_le.2 h, NpReal.sub, NpReal.neg, NpReal.ge]

/-- **C44, Eddington–Finkelstein, all points.** On and off the horizon: the answer "first precedes second" is exactly the causal order, except that two points on the horizon are never
related. -/
theorem C44_EF_horizon {rS : ℝ} (hS : 0 < rS) (x y : Point) :
    (causalityBHNp .eddingtonFinkelstein rS x y).1 = true ↔ EFCausal rS x y ∧ ¬ (|x 1| = rS ∧ |y 1| = rS) := by
  by_cases hx : |x 1| = rS
  · rw [(bhNp_form _ rS x y).1, bhTestNp_from _ hS x y hx]
    have hsw : bhSwap .eddingtonFinkelstein rS x y ↔ y 0 - x 0 < 0 := by unfold bhSwap; simp
    rw [hsw]
    unfold EFCausal EFLe
    rw [hx]
    constructor
    · rintro ⟨h1, h2, h3, h4⟩
      exact ⟨⟨⟨h1, h4 rfl, fun h => absurd h (lt_irrefl _), fun h => absurd h (lt_irrefl _)⟩, fun _ => h3.le⟩, fun h => h3.ne h.2⟩
    · rintro ⟨⟨⟨h1, h2, -, -⟩, h3⟩, h4⟩
      have h5 : |y 1| < rS := lt_of_le_of_ne (h3 rfl) fun h => h4 ⟨rfl, h⟩
      exact ⟨h1, by linarith, h5, fun _ => h2⟩
  · by_cases hy : |y 1| = rS
    · rw [(bhNp_form _ rS x y).1, bhTestNp_to _ hS x y hy]
      have hsw : bhSwap .eddingtonFinkelstein rS x y ↔ y 0 - x 0 < 0 := by unfold bhSwap; simp
      rw [hsw]
      unfold EFCausal EFLe
      rw [hy]
      constructor
      · rintro ⟨h1, h2, h3, -, h4⟩
        exact ⟨⟨⟨h1, h4, fun h => absurd h (not_lt.2 h3.le), fun _ h => absurd h (lt_irrefl _)⟩, fun h => absurd h hx⟩, fun h => hx h.1⟩
      · rintro ⟨⟨⟨h1, h2, h3, -⟩, -⟩, -⟩
        have h5 : rS < |x 1| := by
          rcases lt_or_gt_of_ne hx with h | h
          · exact absurd (h3 h).1 (not_le.2 h)
          · exact h
        exact ⟨h1, by linarith, h5, rfl, h2⟩
    · rw [causalityBHNp_off _ hS x y hx hy, C44_EF hS x y hx hy]
      unfold EFCausal
      constructor
      · intro h; exact ⟨⟨h, fun h' => absurd h' hx⟩, fun h' => hx h'.1⟩
      · intro h; exact h.1.1

/-- **C44, Schwarzschild, all points.** On and off the horizon: the answer "first precedes second" is the causal order off the horizon; a point on the horizon (where the coordinate time is
infinite for light rays) precedes exactly the points inside on its side, and is preceded by none. -/
theorem C44_Schwarzschild_horizon {rS : ℝ} (hS : 0 < rS) (x y : Point) :
    (causalityBHNp .schwarzschild rS x y).1 = true ↔ SchwarzschildLe rS x y ∧ (|x 1| = rS → |y 1| < rS) ∧ |y 1| ≠ rS := by
  by_cases hx : |x 1| = rS
  · rw [(bhNp_form _ rS x y).1, bhTestNp_from _ hS x y hx]
    unfold SchwarzschildLe bhSwap
    rw [hx]
    constructor
    · rintro ⟨h1, h2, h3, -⟩
      exact ⟨⟨h1, fun h => absurd h (lt_irrefl _), fun h => absurd h (lt_irrefl _), fun h => absurd h (lt_irrefl _)⟩, fun _ => h3, h3.ne⟩
    · rintro ⟨⟨h1, -⟩, h3, -⟩
      have h4 := h3 rfl
      refine ⟨h1, ?_, h4, by simp⟩
      rintro (⟨-, -, h5⟩ | ⟨h5, -⟩)
      · linarith
      · exact h5 ⟨rfl, Or.inr h4⟩
  · by_cases hy : |y 1| = rS
    · rw [(bhNp_form _ rS x y).1, bhTestNp_to _ hS x y hy]
      constructor
      · rintro ⟨-, -, -, h, -⟩; cases h
      · rintro ⟨-, -, h⟩; exact absurd hy h
    · rw [causalityBHNp_off _ hS x y hx hy, C44_Schwarzschild hS x y hx hy]
      constructor
      · intro h; exact ⟨h, fun h' => absurd h' hx, hy⟩
      · intro h; exact h.1

/-- **C44, the horizon is a light ray.** In Eddington–Finkelstein coordinates two points on the horizon, one later than the other, are causally related, but the answer is "unrelated" in both
directions. -/
theorem C44_horizon_refuted {rS : ℝ} (hS : 0 < rS) {t s : ℝ} (hts : t < s) :
    let x : Point := fun i => if i = 0 then t else rS
    let y : Point := fun i => if i = 0 then s else rS
    EFCausal rS x y ∧ causalityBHNp .eddingtonFinkelstein rS x y = (false, false) ∧ causalityBHNp .eddingtonFinkelstein rS y x = (false, false) := by
  intro x y
  have ex : |x 1| = rS := by simp [x, abs_of_pos hS]
  have ey : |y 1| = rS := by simp [y, abs_of_pos hS]
  have none : ∀ a b : Point, |a 1| = rS → |b 1| = rS → causalityBHNp .eddingtonFinkelstein rS a b = (false, false) := by
    intro a b ha hb
    obtain ⟨h1, h2⟩ := bhNp_form .eddingtonFinkelstein rS a b
    rw [bhTestNp_from _ hS a b ha] at h1
    rw [bhTestNp_from _ hS b a hb] at h2
    refine Prod.ext (Bool.eq_false_iff.2 fun h => ?_) (Bool.eq_false_iff.2 fun h => ?_)
    · have := (h1.1 h).2.2.1; linarith
    · have := (h2.1 h).2.2.1; linarith
  refine ⟨⟨⟨?_, ?_, fun h => absurd ex h.ne, fun h => absurd ex h.ne'⟩, fun _ => ey.le⟩, none x y ex ey, none y x ey ex⟩
  · show 0 ≤ x 1 * y 1
    simp only [x, y, one_ne_zero, if_false]; positivity
  · rw [ex, ey]; simp only [x, y, if_true, sub_self]; linarith

/-- **C44, black holes, all points.** On and off the horizon, in both coordinates, the causality function describes a causal order (on all points). -/
theorem C44_horizon_order (metric : BHMetric) {rS : ℝ} (hS : 0 < rS) : IsCausalOrder (causalityBHNp metric rS) Set.univ := by
  -- nothing precedes and follows a point on the horizon unless it crosses it
  have after_on : ∀ x y : Point, (|x 1| = rS ∨ |y 1| = rS) → 
      ((causalityBHNp metric rS x y).2 = true ↔ (causalityBHNp metric rS y x).1 = true ∧ (causalityBHNp metric rS x y).1 = false) := by
    intro x y hxy
    rw [(bhNp_form metric rS x y).2, (bhNp_form metric rS y x).1, ← Bool.not_eq_true, (bhNp_form metric rS x y).1, mul_comm (y 1)]
    have hlt : bhTestNp metric rS y x = true → |x 1| < |y 1| ∧ (metric = .eddingtonFinkelstein → |y 1| - |x 1| ≤ x 0 - y 0) := by
      intro h
      rcases hxy with hx | hy
      · rw [bhTestNp_to metric hS y x hx] at h
        rw [hx]; exact ⟨h.1, fun _ => h.2.2⟩
      · rw [bhTestNp_from metric hS y x hy] at h
        rw [hy]; exact ⟨h.1, h.2⟩
    have hlt' : bhTestNp metric rS x y = true → |y 1| < |x 1| := by
      intro h
      rcases hxy with hx | hy
      · rw [bhTestNp_from metric hS x y hx] at h
        rw [hx]; exact h.1
      · rw [bhTestNp_to metric hS x y hy] at h
        rw [hy]; exact h.1
    have hin : bhTestNp metric rS y x = true → metric = .schwarzschild → |x 1| < rS := by
      intro h hm
      rcases hxy with hx | hy
      · rw [bhTestNp_to metric hS y x hx] at h
        rw [hm] at h; exact absurd h.2.1 (by simp)
      · rw [bhTestNp_from metric hS y x hy] at h
        exact h.1
    constructor
    · rintro ⟨h1, h2, h3⟩
      exact ⟨⟨h1, bhSwap_asymm h2, h3⟩, fun h => h.2.1 h2⟩
    · rintro ⟨⟨h1, h2, h3⟩, -⟩
      refine ⟨h1, ?_, h3⟩
      obtain ⟨h4, h5⟩ := hlt h3
      unfold bhSwap
      cases metric
      · right
        exact ⟨by simp, by have := h5 rfl; linarith⟩
      · left
        exact ⟨rfl, Or.inl (hin h3 rfl), h4⟩
  refine ⟨fun x _ y _ z _ h1 h2 => ?_, fun x _ y _ => ?_⟩
  · cases metric
    · rw [C44_EF_horizon hS] at *
      obtain ⟨⟨⟨a1, a2, a3, a4⟩, a5⟩, a6⟩ := h1
      obtain ⟨⟨⟨b1, b2, b3, b4⟩, b5⟩, b6⟩ := h2
      have hxz : |x 1| = rS → |z 1| < rS := fun hx => by
        have h3 : |y 1| < rS := lt_of_le_of_ne (a5 hx) fun h => a6 ⟨hx, h⟩
        exact lt_of_le_of_lt (b3 h3).1 h3
      refine ⟨⟨⟨same_side_trans a1 b1 fun hy0 => ?_, by linarith, fun hi => ?_, fun ho hz => ?_⟩, fun h => (hxz h).le⟩, fun h => (hxz h.1).ne h.2⟩
      · have h3 : |y 1| < rS := by rw [hy0]; simpa using hS
        have := (b3 h3).1
        rw [hy0, abs_zero] at this
        exact abs_eq_zero.1 (le_antisymm this (abs_nonneg _))
      · obtain ⟨c1, c2⟩ := a3 hi
        obtain ⟨d1, d2⟩ := b3 (lt_of_le_of_lt c1 hi)
        exact ⟨d1.trans c1, by linarith⟩
      · have hyo : rS < |y 1| := by
          rcases lt_trichotomy |y 1| rS with h | h | h
          · exact absurd (lt_of_le_of_lt (b3 h).1 h) (not_lt.2 hz.le)
          · exact absurd (b5 h) (not_le.2 hz)
          · exact h
        linarith [a4 ho hyo, b4 hyo hz]
    · rw [C44_Schwarzschild_horizon hS] at *
      refine ⟨h1.1.trans hS h1.2.2 h2.1, fun hx => ?_, h2.2.2⟩
      have h3 := h1.2.1 hx
      exact lt_of_le_of_lt (h2.1.2.1 h3).1 h3
  · by_cases hxy : |x 1| = rS ∨ |y 1| = rS
    · exact after_on x y hxy
    · push Not at hxy
      rw [causalityBHNp_off metric hS x y hxy.1 hxy.2, causalityBHNp_off metric hS y x hxy.2 hxy.1]
      cases metric
      · exact (C44_EF_order hS).1.after x hxy.1 y hxy.2
      · exact (C44_Schwarzschild_order hS).after x hxy.1 y hxy.2

end Causets
