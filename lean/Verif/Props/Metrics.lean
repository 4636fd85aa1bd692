import Verif.Props.SymmetryCurved

/-! # C124 — the coordinate systems of a black hole describe the same black hole -/

namespace Causets

/-- **Specification.** The time of Eddington-Finkelstein coordinates of the event with the given Schwarzschild coordinates: `t + r_S log |r / r_S - 1|`. -/
noncomputable def toEddingtonFinkelstein (rS : ℝ) (x : Point) : Point := fun i => if i = 0 then x 0 + rS * Real.log |(|x 1| / rS - 1)| else x i

theorem toEF_zero (rS : ℝ) (x : Point) : toEddingtonFinkelstein rS x 0 = x 0 + rS * Real.log |(|x 1| / rS - 1)| := by simp [toEddingtonFinkelstein]
theorem toEF_one (rS : ℝ) (x : Point) : toEddingtonFinkelstein rS x 1 = x 1 := by simp [toEddingtonFinkelstein]

set_option maxHeartbeats 4000000 in
open Classical in
/-- the decision of both causality functions, where `t` is the difference of Schwarzschild times, `u` and `v` are the logarithmic terms -/
theorem metrics_agree {rS : ℝ} (hS : 0 < rS) (a b u v t : ℝ) (ha : a ≠ rS) (hb : b ≠ rS) (huv : rS < a → a ≤ b → u ≤ v) (hvu : rS < b → b ≤ a → v ≤ u) (he : a = b → u = v) :
    (let swapped := test (t + (v - u) < 0)
     let r := if swapped then b else a
     let s := if swapped then a else b
     let t' := if swapped then -(t + (v - u)) else t + (v - u)
     let tOut := (if swapped then a + 2 * u else b + 2 * v) - (if swapped then b + 2 * v else a + 2 * u)
     let tIn := r - s
     let c := if test (s ≤ r ∧ r ≤ rS) then test (tOut ≥ t' ∧ t' ≥ tIn) else if test (rS ≤ r ∧ r ≥ s) then test (t' ≥ tIn) else if test (rS ≤ r ∧ r ≤ s) then test (t' ≥ tOut) else false
     if swapped then (false, c) else (c, false)) =
    (let swapped := if test (a < rS ∨ b < rS) then test (a < b) else test (t < 0)
     let r := if swapped then b else a
     let s := if swapped then a else b
     let t' := if swapped then -t else t
     let tOut := (if swapped then a + u else b + v) - (if swapped then b + v else a + u)
     let tIn := -tOut
     let c := if test (s ≤ r ∧ r ≤ rS) then test (tOut ≥ t' ∧ t' ≥ tIn) else if test (rS ≤ r ∧ r ≥ s) then test (t' ≥ tIn) else if test (rS ≤ r ∧ r ≤ s) then test (t' ≥ tOut) else false
     if swapped then (false, c) else (c, false)) := by
  have T : ∀ {p : Prop}, p → test p = true := fun h => decide_eq_true h
  have F : ∀ {p : Prop}, ¬p → test p = false := fun h => decide_eq_false h
  have I : ∀ {p : Prop}, (test p = true) = p := fun {p} => propext decide_eq_true_iff
  have E : ∀ {p q : Prop}, (test p = test q) = (p ↔ q) := fun {p q} => propext decide_eq_decide
  have E0 : ∀ {p : Prop}, (test p = false) = ¬p := fun {p} => propext decide_eq_false_iff_not
  have E1 : ∀ {p : Prop}, (false = test p) = ¬p := fun {p} => propext (eq_comm.trans decide_eq_false_iff_not)
  dsimp only
  rcases lt_or_gt_of_ne ha with a1 | a1 <;> rcases lt_or_gt_of_ne hb with b1 | b1 <;> rcases lt_trichotomy a b with h | h | h
  all_goals first | (exfalso; linarith) | skip
  all_goals rcases lt_or_ge (t + (v - u)) 0 with t1 | t1 <;> rcases lt_or_ge t 0 with t2 | t2
  all_goals
    first | rw [T t1] | rw [F t1.not_gt]
  all_goals
    first | rw [T (p := a < rS ∨ b < rS) (by first | exact Or.inl a1 | exact Or.inr b1)] | rw [F (p := a < rS ∨ b < rS) (by rintro (h | h) <;> linarith)]
  all_goals simp only [if_true, if_false, Bool.false_eq_true]
  all_goals first | rw [T h] | rw [F h.not_gt] | rw [F h.not_lt] | skip
  all_goals first | rw [T t2] | rw [F t2.not_gt] | skip
  all_goals simp only [if_true, if_false, Bool.false_eq_true, I, ge_iff_le]
  all_goals
    have huv' : rS < a → a ≤ b → u ≤ v := huv
    split_ifs <;> simp only [Prod.mk.injEq, E, E0, E1, true_and, and_true] <;> first | rfl | grind

theorem log_normal {rS : ℝ} (hS : 0 < rS) (r : ℝ) : Real.log |(r - rS) / (0 - rS)| = Real.log |(r / rS - 1)| := by
  have : (r - rS) / (0 - rS) = -(r / rS - 1) := by
    rw [div_eq_iff (by linarith)]
    field_simp
    ring
  rw [this, abs_neg]

theorem log_mono {rS : ℝ} (hS : 0 < rS) {a b : ℝ} (h1 : rS < a) (h2 : a ≤ b) : rS * Real.log |(a / rS - 1)| ≤ rS * Real.log |(b / rS - 1)| := by
  have h3 : 1 < a / rS := (one_lt_div hS).2 h1
  have h4 : a / rS ≤ b / rS := div_le_div_of_nonneg_right h2 hS.le
  refine mul_le_mul_of_nonneg_left ?_ hS.le
  rw [abs_of_pos (by linarith), abs_of_pos (by linarith)]
  exact Real.log_le_log (by linarith) (by linarith)

open Classical in
theorem test_is_true {p : Prop} (h : p) : test p = true := decide_eq_true h
open Classical in
theorem test_is_false {p : Prop} (h : ¬p) : test p = false := decide_eq_false h

/-- **C124, the coordinate systems of a black hole.** For events off the horizon with the given Schwarzschild coordinates, the causality function of the Schwarzschild metric gives the same values as the
causality function of the Eddington-Finkelstein metric for their Eddington-Finkelstein coordinates (inside, outside and across the horizon). -/
theorem C124_metrics {rS : ℝ} (hS : 0 < rS) (x y : Point) (hx : |x 1| ≠ rS) (hy : |y 1| ≠ rS) :
    causalityBH .eddingtonFinkelstein rS (toEddingtonFinkelstein rS x) (toEddingtonFinkelstein rS y) = causalityBH .schwarzschild rS x y := by
  have key := metrics_agree hS |x 1| |y 1| (rS * Real.log |(|x 1| / rS - 1)|) (rS * Real.log |(|y 1| / rS - 1)|) (y 0 - x 0) hx hy (fun h1 h2 => log_mono hS h1 h2) (fun h1 h2 => log_mono hS h1 h2)
    (fun h => by rw [h])
  have e : y 0 + rS * Real.log |(|y 1| / rS - 1)| - (x 0 + rS * Real.log |(|x 1| / rS - 1)|) = y 0 - x 0 + (rS * Real.log |(|y 1| / rS - 1)| - rS * Real.log |(|x 1| / rS - 1)|) := by ring
  have f1 : ∀ r, lightEF rS 0 0 false r = r + 2 * (rS * Real.log |(r / rS - 1)|) := by
    intro r
    unfold lightEF
    rw [log_normal hS]
    simp only [Bool.false_eq_true, if_false]
    ring
  have f2 : ∀ r, lightS rS 0 0 false r = r + rS * Real.log |(r / rS - 1)| := by
    intro r
    unfold lightS
    rw [log_normal hS]
    simp only [Bool.false_eq_true, if_false]
    ring
  unfold causalityBH
  rw [toEF_zero, toEF_zero, toEF_one, toEF_one, e]
  have A1 : ∀ (c : Bool) (a b : ℝ), lightEF rS 0 0 false (if c = true then a else b) = if c = true then lightEF rS 0 0 false a else lightEF rS 0 0 false b := fun c a b => by cases c <;> rfl
  have A2 : ∀ (c : Bool) (a b : ℝ), lightS rS 0 0 false (if c = true then a else b) = if c = true then lightS rS 0 0 false a else lightS rS 0 0 false b := fun c a b => by cases c <;> rfl
  by_cases h : x 1 * y 1 < 0
  · have : test (x 1 * y 1 < 0) = true := test_is_true h
    simp only [this, if_true]
  · have : test (x 1 * y 1 < 0) = false := test_is_false h
    have n1 : ¬(BHMetric.eddingtonFinkelstein = BHMetric.schwarzschild) := by decide
    have t0 : ∀ p : Prop, test (BHMetric.eddingtonFinkelstein = BHMetric.schwarzschild ∧ p) = false := fun p => test_is_false fun h => n1 h.1
    have t1 : ∀ p : Prop, test (BHMetric.schwarzschild = BHMetric.schwarzschild ∧ p) = test p := fun p => test_congr (and_iff_right rfl)
    have t2 : ∀ p : Prop, test (True ∧ p) = test p := fun p => test_congr (and_iff_right trivial)
    simp only [this, Bool.false_eq_true, if_false, t0, t1, t2, if_neg n1, if_true, A1, A2, f1, f2]
    exact key

/-- **C124, causal sets.** Creating events in a black hole gives the same causal set in both metrics, if the coordinates are transformed (for events off the horizon). -/
theorem C124_create {rS : ℝ} (hS : 0 < rS) (it : Iter) (C : Finset EId) (coords : List Point) (hx : ∀ x ∈ coords, |x 1| ≠ rS) (fmt : Option (ℕ → String)) (doRelate : Bool)
    (w : World Point) (hw : ∀ e ∈ C, ∀ x, w.crd e = some x → |x 1| ≠ rS) :
    let r := create (causalityBH .schwarzschild rS) it C coords fmt doRelate w
    create (causalityBH .eddingtonFinkelstein rS) it C (coords.map (toEddingtonFinkelstein rS)) fmt doRelate (w.moved (toEddingtonFinkelstein rS)) =
      (r.1, r.2.1, r.2.2.1, r.2.2.2.moved (toEddingtonFinkelstein rS)) :=
  C122_create (causalityBH .schwarzschild rS) (causalityBH .eddingtonFinkelstein rS) (toEddingtonFinkelstein rS) {x | |x 1| ≠ rS} (fun x hx y hy => C124_metrics hS x y hx hy) it C coords hx fmt doRelate w hw

/-- The hypotheses of the theorems are met by an event inside and an event outside, of which the second is in the past of the first in both metrics. -/
example : |(fun i => if i = 1 then (1 / 2 : ℝ) else 3 : Point) 1| ≠ 1 ∧ |(fun i => if i = 1 then (2 : ℝ) else 0 : Point) 1| ≠ 1 := by
  constructor <;> norm_num [abs_of_pos]


end Causets
