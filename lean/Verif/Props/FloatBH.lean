import Verif.Model.FloatBH
import Verif.Props.FloatCurved
import Verif.Props.BlackHole
import Mathlib.Analysis.SpecialFunctions.Log.Deriv

/-! # C104 — the causality function of black hole spacetimes in floating point arithmetic -/

namespace Causets

variable {rnd : ℝ → ℝ}

/-- the test after the optional exchange of the points -/
noncomputable def bhTestFl (rnd log : ℝ → ℝ) (metric : BHMetric) (rS : ℝ) (x y : Point) : Prop :=
  let f := lightFl rnd log metric rS
  let tOut := rnd (f |y 1| - f |x 1|)
  let tIn := if metric = .schwarzschild then -tOut else rnd (|x 1| - |y 1|)
  if |y 1| ≤ |x 1| ∧ |x 1| ≤ rS then tOut ≥ rnd (y 0 - x 0) ∧ rnd (y 0 - x 0) ≥ tIn
  else if rS ≤ |x 1| ∧ |x 1| ≥ |y 1| then rnd (y 0 - x 0) ≥ tIn
  else if rS ≤ |x 1| ∧ |x 1| ≤ |y 1| then rnd (y 0 - x 0) ≥ tOut
  else False

/-- are the points exchanged? -/
def bhSwapFl (rnd : ℝ → ℝ) (metric : BHMetric) (rS : ℝ) (x y : Point) : Prop :=
  (metric = .schwarzschild ∧ (|x 1| < rS ∨ |y 1| < rS) ∧ |x 1| < |y 1|) ∨
  (¬ (metric = .schwarzschild ∧ (|x 1| < rS ∨ |y 1| < rS)) ∧ rnd (y 0 - x 0) < 0)

open Classical in
theorem bhFl_form (hr : IsRounding rnd) (log : ℝ → ℝ) (metric : BHMetric) (rS : ℝ) (x y : Point) :
    ((causalityBHFl rnd log metric rS x y).1 = true ↔ 0 ≤ rnd (x 1 * y 1) ∧ ¬ bhSwapFl rnd metric rS x y ∧ bhTestFl rnd log metric rS x y) ∧
    ((causalityBHFl rnd log metric rS x y).2 = true ↔ 0 ≤ rnd (x 1 * y 1) ∧ bhSwapFl rnd metric rS x y ∧ bhTestFl rnd log metric rS y x) := by
  unfold causalityBHFl
  dsimp only
  by_cases hp : rnd (x 1 * y 1) < 0
  · simp [test, hp]
  · have hp' : 0 ≤ rnd (x 1 * y 1) := not_lt.1 hp
    have hsw : (if test (metric = .schwarzschild ∧ (|x 1| < rS ∨ |y 1| < rS)) then test (|x 1| < |y 1|) else test (rnd (y 0 - x 0) < 0)) =
        test (bhSwapFl rnd metric rS x y) := by
      unfold bhSwapFl
      by_cases h1 : metric = .schwarzschild ∧ (|x 1| < rS ∨ |y 1| < rS)
      · simp [test, h1]
      · have h2 : ¬ (metric = .schwarzschild ∧ (|x 1| < rS ∨ |y 1| < rS) ∧ |x 1| < |y 1|) := fun h => h1 ⟨h.1, h.2.1⟩
        simp only [test, h1, h2, decide_false, Bool.false_eq_true, if_false, not_false_eq_true, true_and, false_or]
    rw [hsw]
    have hp0 : test (rnd (x 1 * y 1) < 0) = false := by simp [test, hp']
    rw [hp0]
    simp only [Bool.false_eq_true, if_false]
    by_cases h1 : bhSwapFl rnd metric rS x y
    · have : test (bhSwapFl rnd metric rS x y) = true := by simp [test, h1]
      rw [this]
      simp only [if_true, Bool.false_eq_true, false_iff, hp', true_and, h1, not_true, false_and, not_false_eq_true]
      unfold bhTestFl
      dsimp only
      rw [← hr.sub_comm (x 0) (y 0)]
      by_cases c1 : |x 1| ≤ |y 1| ∧ |y 1| ≤ rS
      · simp [test, c1]
      · by_cases c2 : rS ≤ |y 1| ∧ |y 1| ≥ |x 1|
        · simp [test, c1, c2]
        · by_cases c3 : rS ≤ |y 1| ∧ |y 1| ≤ |x 1| <;> simp [test, c1, c2, c3]
    · have : test (bhSwapFl rnd metric rS x y) = false := by simp [test, h1]
      rw [this]
      simp only [Bool.false_eq_true, if_false, false_iff, hp', true_and, h1, false_and, not_false_eq_true]
      unfold bhTestFl
      dsimp only
      by_cases c1 : |y 1| ≤ |x 1| ∧ |x 1| ≤ rS
      · simp [test, c1]
      · by_cases c2 : rS ≤ |x 1| ∧ |x 1| ≥ |y 1|
        · simp [test, c1, c2]
        · by_cases c3 : rS ≤ |x 1| ∧ |x 1| ≤ |y 1| <;> simp [test, c1, c2, c3]

/-- **C104, directions in black hole spacetimes.** With rounding after every operation and any logarithm, for all points with binary64 times: never both directions; in Eddington–Finkelstein
coordinates, and in Schwarzschild coordinates outside, a point with an answer "first precedes second" is not later, without rounding error; in Schwarzschild coordinates with one point inside it
is not closer to the singularity; if the points differ in time and radius, swapping the points swaps the answers. -/
theorem C104_BH_directions (hr : IsRounding rnd) (log : ℝ → ℝ) (metric : BHMetric) (rS : ℝ) (x y : Point) (hx : x 0 ∈ Binary64) (hy : y 0 ∈ Binary64) :
    let c := causalityBHFl rnd log metric rS
    ¬ ((c x y).1 = true ∧ (c x y).2 = true) ∧
    ((c x y).1 = true → if metric = .schwarzschild ∧ (|x 1| < rS ∨ |y 1| < rS) then |y 1| ≤ |x 1| else x 0 ≤ y 0) ∧
    ((c x y).2 = true → if metric = .schwarzschild ∧ (|x 1| < rS ∨ |y 1| < rS) then |x 1| < |y 1| else y 0 < x 0) ∧
    (x 0 ≠ y 0 → |x 1| ≠ |y 1| → c y x = ((c x y).2, (c x y).1)) := by
  intro c
  have hs : rnd (y 0 - x 0) < 0 ↔ y 0 < x 0 := by rw [← not_le, hr.sub_nonneg_iff hx hy, not_le]
  have hs' : rnd (x 0 - y 0) < 0 ↔ x 0 < y 0 := by rw [← not_le, hr.sub_nonneg_iff hy hx, not_le]
  obtain ⟨f1, f2⟩ := bhFl_form hr log metric rS x y
  obtain ⟨g1, g2⟩ := bhFl_form hr log metric rS y x
  have hsw : bhSwapFl rnd metric rS x y ↔ if metric = .schwarzschild ∧ (|x 1| < rS ∨ |y 1| < rS) then |x 1| < |y 1| else y 0 < x 0 := by
    unfold bhSwapFl
    rw [hs]
    split <;> rename_i h
    · constructor
      · rintro (h' | h')
        · exact h'.2.2
        · exact absurd h h'.1
      · exact fun h' => Or.inl ⟨h.1, h.2, h'⟩
    · constructor
      · rintro (h' | h')
        · exact absurd ⟨h'.1, h'.2.1⟩ h
        · exact h'.2
      · exact fun h' => Or.inr ⟨h, h'⟩
  have hsw' : bhSwapFl rnd metric rS y x ↔ if metric = .schwarzschild ∧ (|x 1| < rS ∨ |y 1| < rS) then |y 1| < |x 1| else x 0 < y 0 := by
    unfold bhSwapFl
    rw [hs', or_comm (a := |y 1| < rS)]
    split <;> rename_i h
    · constructor
      · rintro (h' | h')
        · exact h'.2.2
        · exact absurd h h'.1
      · exact fun h' => Or.inl ⟨h.1, h.2, h'⟩
    · constructor
      · rintro (h' | h')
        · exact absurd ⟨h'.1, h'.2.1⟩ h
        · exact h'.2
      · exact fun h' => Or.inr ⟨h, h'⟩
  refine ⟨?_, ?_, ?_, fun h1 h2 => ?_⟩
  · rintro ⟨a, b⟩
    exact (f1.1 a).2.1 (f2.1 b).2.1
  · intro h
    have := (f1.1 h).2.1
    rw [hsw] at this
    by_cases h' : metric = .schwarzschild ∧ (|x 1| < rS ∨ |y 1| < rS)
    · rw [if_pos h'] at this ⊢; exact not_lt.1 this
    · rw [if_neg h'] at this ⊢; exact not_lt.1 this
  · intro h
    exact hsw.1 (f2.1 h).2.1
  · have hn : bhSwapFl rnd metric rS y x ↔ ¬ bhSwapFl rnd metric rS x y := by
      rw [hsw, hsw']
      split
      · rw [not_lt]; exact ⟨le_of_lt, fun h => lt_of_le_of_ne h (Ne.symm h2)⟩
      · rw [not_lt]; exact ⟨le_of_lt, fun h => lt_of_le_of_ne h h1⟩
    have hm : rnd (y 1 * x 1) = rnd (x 1 * y 1) := by rw [mul_comm]
    have e1 : (c y x).1 = true ↔ (c x y).2 = true := by
      rw [g1, f2, hn, not_not, hm]
    have e2 : (c y x).2 = true ↔ (c x y).1 = true := by
      rw [g2, f1, hn, hm]
    exact Prod.ext (Bool.eq_iff_iff.2 e1) (Bool.eq_iff_iff.2 e2)

/-- **C104, infall.** In Eddington–Finkelstein coordinates rounding never loses a causal relation that leads inwards from the outside: it does not depend on the logarithm. -/
theorem C104_BH_infall (hr : IsRounding rnd) (log : ℝ → ℝ) {rS : ℝ} (x y : Point) (ho : rS < |x 1|) (hi : |y 1| ≤ |x 1|)
    (h : EFLe rS x y) : (causalityBHFl rnd log .eddingtonFinkelstein rS x y).1 = true := by
  rw [(bhFl_form hr log _ rS x y).1]
  have h0 : 0 ≤ y 0 - x 0 := by linarith [h.2.1]
  refine ⟨hr.nonneg h.1, ?_, ?_⟩
  · unfold bhSwapFl
    simp only [reduceCtorEq, false_and, not_false_eq_true, true_and, false_or, not_lt]
    exact hr.nonneg h0
  · unfold bhTestFl
    dsimp only
    rw [if_neg (by rintro ⟨_, h'⟩; linarith), if_pos ⟨ho.le, hi⟩, if_neg (by simp)]
    exact hr.mono h.2.1

/-- **C104, refuted sentence for black holes.** Near the singularity relations are lost: with the rounding of IEEE 754 and any logarithm with `log 1 = 0`, the point at the radius `2^-60` is not
found to precede any point at the centre, although the centre at the time of arrival of the infalling light ray is in its future. -/
theorem C104_BH_refuted (hr : IsRounding rnd) (log : ℝ → ℝ) (hl : log 1 = 0) : ∃ x y : Point, (∀ i, x i ∈ Binary64 ∧ y i ∈ Binary64) ∧ EFLe 1 x y ∧
    (causalityBH .eddingtonFinkelstein 1 x y).1 = true ∧ ∀ z : Point, z 1 = 0 → causalityBHFl rnd log .eddingtonFinkelstein 1 x z = (false, false) := by
  set q : ℝ := (2 : ℝ) ^ (-60 : ℤ) with hq
  have q0 : 0 < q := by positivity
  have hq' : q = 1 / 2 ^ 60 := by rw [hq, zpow_neg, one_div]; norm_cast
  have q1 : q < 1 := by rw [hq']; norm_num
  have qm : q ∈ Binary64 := ⟨1, -60, by norm_num, by norm_num, by simp [hq]⟩
  clear_value q
  have zm : (0 : ℝ) ∈ Binary64 := ⟨0, 0, by norm_num, by norm_num, by simp⟩
  have om : (1 : ℝ) ∈ Binary64 := by have := int_mem_binary64 (n := 1) (by norm_num); simpa using this
  have oneR : rnd 1 = 1 := hr.fix om
  have q1R : rnd (q - 1) = -1 := by
    rw [hr.sub_comm q 1]
    have : rnd (1 - q) = 1 := by
      apply le_antisymm
      · have := hr.mono (show 1 - q ≤ 1 by linarith); rwa [oneR] at this
      · by_contra hc
        push Not at hc
        -- the next number below 1 is 1 - 2^-53
        have hm : (1 : ℝ) - 1 / 2 ^ 53 ∈ Binary64 := by
          refine ⟨2 ^ 53 - 1, -53, by norm_num, by norm_num, ?_⟩
          rw [zpow_neg]; norm_num
        have h1 := hr.nearest (1 - q) 1 om
        have h2 : |rnd (1 - q) - (1 - q)| ≤ q := by
          refine h1.trans (le_of_eq ?_)
          rw [show (1 : ℝ) - (1 - q) = q by ring, abs_of_pos q0]
        have h3 := (abs_le.1 h2).1
        obtain ⟨m, e, hm1, he, hme⟩ := hr.mem (1 - q)
        -- rnd (1 - q) is in (1 - 2^-54, 1), where there is no binary64 number
        have h4 : 1 - 1 / 2 ^ 54 < rnd (1 - q) := by
          have : 1 - 1 / 2 ^ 54 < (1 : ℝ) - q - q := by rw [hq']; norm_num
          linarith
        rw [hme] at h4 hc
        have hpos : (0 : ℝ) < m * 2 ^ e := by linarith [show (0 : ℝ) < 1 - 1 / 2 ^ 54 by norm_num]
        have hm0 : 0 < m := by
          have : (0 : ℝ) < m := pos_of_mul_pos_left hpos (by positivity)
          exact_mod_cast this
        have he53 : -53 ≤ e := by
          by_contra hcc
          push Not at hcc
          have e1 : (2 : ℝ) ^ e ≤ 2 ^ (-54 : ℤ) := zpow_le_zpow_right₀ (by norm_num) (by omega)
          have e2 : (m : ℝ) ≤ 2 ^ 53 := by have := (abs_lt.1 hm1).2; exact_mod_cast this.le
          have : (m : ℝ) * 2 ^ e ≤ 2 ^ 53 * 2 ^ (-54 : ℤ) := mul_le_mul e2 e1 (by positivity) (by positivity)
          rw [zpow_neg] at this
          norm_num at this h4
          linarith
        have e3 : (m : ℝ) * 2 ^ e = ((m * 2 ^ (e + 53).toNat : ℤ) : ℝ) / 2 ^ 53 := by
          push_cast
          rw [← zpow_natCast (2 : ℝ) (e + 53).toNat, Int.toNat_of_nonneg (by omega), zpow_add₀ (by norm_num)]
          have : (2 : ℝ) ^ (53 : ℤ) = 2 ^ 53 := by norm_cast
          rw [this]; field_simp
        rw [e3] at h4 hc
        have f1 : ((m * 2 ^ (e + 53).toNat : ℤ) : ℝ) < 2 ^ 53 := by
          rw [div_lt_one (by norm_num)] at hc; exact hc
        have f2 : (2 ^ 53 - 1 : ℝ) < ((m * 2 ^ (e + 53).toNat : ℤ) : ℝ) := by
          rw [lt_div_iff₀ (by norm_num)] at h4
          refine lt_trans ?_ h4
          norm_num
        have f1' : m * 2 ^ (e + 53).toNat < 2 ^ 53 := by exact_mod_cast f1
        have f2' : 2 ^ 53 - 1 < m * 2 ^ (e + 53).toNat := by exact_mod_cast f2
        omega
    rw [this]
  have negR : ∀ z, rnd (-z) = -rnd z := hr.odd
  have k0 : rnd 0 = 0 := hr.zero
  have qR : rnd q = q := hr.fix qm
  have f0 : lightFl rnd log .eddingtonFinkelstein 1 0 = 0 := by
    unfold lightFl
    simp only [reduceCtorEq, if_false, sub_zero, k0, add_zero, zero_sub, negR, oneR]
    norm_num
    rw [oneR, abs_one, hl, mul_zero, k0, k0]
  have fq : lightFl rnd log .eddingtonFinkelstein 1 q = q := by
    unfold lightFl
    simp only [reduceCtorEq, if_false, sub_zero, qR, add_zero, zero_sub, negR, oneR, q1R]
    norm_num
    rw [oneR, abs_one, hl, mul_zero, k0, add_zero, qR]
  refine ⟨fun i => if i = 1 then q else 0, fun i => if i = 0 then q else 0, fun i => ⟨by dsimp only; split <;> assumption, by dsimp only; split <;> assumption⟩, ?_⟩
  have hE : EFLe 1 (fun i => if i = 1 then q else 0) (fun i => if i = 0 then q else 0) := by
    unfold EFLe
    simp only [if_true, one_ne_zero, if_false, zero_ne_one, mul_zero, le_refl, abs_zero, sub_zero, true_and, abs_of_pos q0]
    refine ⟨fun _ => ⟨q0.le, ?_⟩, fun h => absurd h (by linarith)⟩
    unfold rayTime
    have h1 : |0 / (1 : ℝ) - 1| = 1 := by norm_num
    have h2 : |q / 1 - 1| = 1 - q := by rw [div_one, abs_sub_comm, abs_of_pos (by linarith)]
    rw [h1, h2, Real.log_one]
    have := Real.log_le_sub_one_of_pos (show 0 < 1 - q by linarith)
    linarith
  refine ⟨hE, ?_, fun z hz => ?_⟩
  · rw [C44_EF one_pos _ _ (by simp [abs_of_pos q0, q1.ne]) (by simp)]
    exact hE
  · have key : ¬ (causalityBHFl rnd log .eddingtonFinkelstein 1 (fun i => if i = 1 then q else 0) z).1 = true ∧
        ¬ (causalityBHFl rnd log .eddingtonFinkelstein 1 (fun i => if i = 1 then q else 0) z).2 = true := by
      obtain ⟨f1, f2⟩ := bhFl_form hr log .eddingtonFinkelstein 1 (fun i => if i = 1 then q else 0) z
      rw [f1, f2]
      constructor
      · rintro ⟨-, hsw, ht⟩
        unfold bhSwapFl at hsw
        unfold bhTestFl at ht
        simp only [reduceCtorEq, false_and, not_false_eq_true, true_and, false_or, not_lt, if_false] at hsw
        simp only [if_true, hz, abs_zero, abs_of_pos q0, f0, fq, zero_sub, negR, qR, q0.le, q1.le, and_self, zero_ne_one, if_false] at ht
        linarith [ht.1]
      · rintro ⟨-, -, ht⟩
        unfold bhTestFl at ht
        simp only [if_true, hz, abs_zero, abs_of_pos q0] at ht
        rw [if_neg (by rintro ⟨h, -⟩; linarith), if_neg (by rintro ⟨h, -⟩; linarith), if_neg (by rintro ⟨h, -⟩; linarith)] at ht
        exact ht
    exact Prod.ext (by simpa using key.1) (by simpa using key.2)

/-! ## accuracy -/

/-- **Specification.** The error of a travel time of light, in units of `2^-53`: radii (and the Schwarzschild radius `rS`) up to `R`, and for both radii `|r / rS - 1| ≥ s` and
`|log |r / rS - 1|| ≤ L`. -/
noncomputable def bhErr (R rS L s : ℝ) : ℝ :=
  2 * (2 * rS * (2 * ((2 * R + 1) / rS + 2) / s + 2 * L + 4) + 2 * rS * L + 2 + R + 2 * rS * L + 2) + 2 * (R + 2 * rS * L) + 2

/-- **Specification.** The same point of space at a time that is later by `d`. -/
def later (y : Point) (d : ℝ) : Point := fun i => if i = 0 then y 0 + d else y i

theorem inside_log {rS r r' : ℝ} (h0 : 0 ≤ r) (h : r ≤ r') (h' : r' < rS) : rS * Real.log |r' / rS - 1| ≤ rS * Real.log |r / rS - 1| - (r' - r) := by
  have hS : 0 < rS := by linarith
  have e : ∀ z, z < rS → |z / rS - 1| = (rS - z) / rS := fun z hz => by
    rw [abs_of_neg (by rw [sub_neg, div_lt_one hS]; exact hz)]
    field_simp; ring
  rw [e _ h', e _ (h.trans_lt h'), Real.log_div (by linarith) hS.ne', Real.log_div (by linarith) hS.ne']
  have h1 : 0 < rS - r := by linarith
  have h2 : 0 < rS - r' := by linarith
  have h3 := Real.log_le_sub_one_of_pos (div_pos h2 h1)
  rw [Real.log_div h2.ne' h1.ne'] at h3
  have h4 : (rS - r') / (rS - r) - 1 = -((r' - r) / (rS - r)) := by field_simp; ring
  have h5 : (r' - r) / rS ≤ (r' - r) / (rS - r) := div_le_div_of_nonneg_left (by linarith) h1 (by linarith)
  have h6 : Real.log (rS - r') - Real.log (rS - r) ≤ -((r' - r) / rS) := by linarith
  have h7 := mul_le_mul_of_nonneg_left h6 hS.le
  have h8 : rS * -((r' - r) / rS) = -(r' - r) := by field_simp
  nlinarith

/-- the exact function -/
noncomputable def lightExact (metric : BHMetric) (rS r : ℝ) : ℝ := if metric = .schwarzschild then rayTime 1 rS r else rayTime 2 rS r

theorem double_mem {z : ℝ} (h : z ∈ Binary64) : 2 * z ∈ Binary64 := by
  obtain ⟨m, e, h1, h2, rfl⟩ := h
  refine ⟨m, e + 1, h1, by omega, ?_⟩
  rw [zpow_add₀ (by norm_num)]; norm_num; ring

theorem log_near {a b s e : ℝ} (hs : 0 < s) (hb : s ≤ |b|) (h : |a - b| ≤ e * ulp) (he : e * ulp ≤ s / 2) : 0 < |a| ∧ abs (Real.log |a| - Real.log |b|) ≤ (2 * e / s) * ulp := by
  have h1 : abs (|a| - |b|) ≤ e * ulp := (abs_abs_sub_abs_le a b).trans h
  have h1' := abs_le.1 h1
  have ha : s / 2 ≤ |a| := by linarith
  have ha0 : 0 < |a| := by linarith
  have hb0 : 0 < |b| := by linarith
  refine ⟨ha0, ?_⟩
  have key : ∀ p q : ℝ, 0 < p → s / 2 ≤ q → |p - q| ≤ e * ulp → Real.log p - Real.log q ≤ (2 * e / s) * ulp := by
    intro p q hp hq hpq
    have hq0 : 0 < q := by linarith
    rw [← Real.log_div hp.ne' hq0.ne']
    have h3 := Real.log_le_sub_one_of_pos (div_pos hp hq0)
    have h4 : p / q - 1 = (p - q) / q := by field_simp
    have h5 : (p - q) / q ≤ |p - q| / (s / 2) := by
      refine (div_le_div_of_nonneg_right (le_abs_self _) hq0.le).trans ?_
      exact div_le_div_of_nonneg_left (abs_nonneg _) (by linarith) hq
    have h6 : |p - q| / (s / 2) ≤ e * ulp / (s / 2) := div_le_div_of_nonneg_right hpq (by linarith)
    have h7 : e * ulp / (s / 2) = (2 * e / s) * ulp := by field_simp
    linarith
  rw [abs_le]
  have k1 := key |a| |b| ha0 (by linarith) h1
  have k2 := key |b| |a| hb0 ha (by rw [abs_sub_comm]; exact h1)
  constructor <;> linarith

/-- the error of the function of the travel times -/
theorem light_near (hr : IsRounding rnd) {log : ℝ → ℝ} (hl : ∀ z, 0 < z → |log z - Real.log z| ≤ 2 * ulp * (|Real.log z| + 1)) (metric : BHMetric) {R rS L s r : ℝ} (hS : 0 < rS) (hSm : rS ∈ Binary64)
    (hSR : rS ≤ R) (hr0 : 0 ≤ r) (hrm : r ∈ Binary64) (hrR : r ≤ R) (hs : 0 < s) (hs1 : s ≤ 1) (hrs : s ≤ |r / rS - 1|) (hL : abs (Real.log |r / rS - 1|) ≤ L)
    (h1 : ((2 * R + 1) / rS + 2) * ulp ≤ s / 2) (hE : bhErr R rS L s * ulp ≤ 1) :
    |lightFl rnd log metric rS r - lightExact metric rS r| ≤ (2 * rS * (2 * ((2 * R + 1) / rS + 2) / s + 2 * L + 4) + 2 * rS * L + 2 + R + 2 * rS * L + 2) * ulp ∧
    |lightExact metric rS r| ≤ R + 2 * rS * L := by
  have hu := ulp_pos
  have hR : 0 < R := by linarith
  have hL0 : 0 ≤ L := (abs_nonneg _).trans hL
  have hSL : 0 ≤ rS * L := by positivity
  -- the argument of the logarithm
  have a1 : |rnd (r - rS) - (r - rS)| ≤ (R + 1) * ulp := by
    refine (hr.err' _).trans ?_
    have : |r - rS| ≤ R := by rw [abs_le]; constructor <;> linarith
    nlinarith
  have nR : rnd (0 - rS) = -rS := by rw [zero_sub, hr.odd, hr.fix hSm]
  have e1 : (r - rS) / (-rS) = -(r / rS - 1) := by field_simp
  have a2 : |rnd (r - rS) / (-rS) - (-(r / rS - 1))| ≤ ((R + 1) / rS) * ulp := by
    rw [← e1, ← sub_div, abs_div, abs_neg, abs_of_pos hS, div_mul_eq_mul_div]
    exact div_le_div_of_nonneg_right a1 hS.le
  have hV : |-(r / rS - 1)| ≤ R / rS := by
    rw [← e1, abs_div, abs_neg, abs_of_pos hS]
    refine div_le_div_of_nonneg_right ?_ hS.le
    rw [abs_le]; constructor <;> linarith
  have hp1 : 0 ≤ (2 * R + 1) / rS := by positivity
  have hsum : (R + 1) / rS + R / rS = (2 * R + 1) / rS := by field_simp; ring
  have hRS : 0 ≤ R / rS := by positivity
  have ht : 0 ≤ 2 * ((2 * R + 1) / rS + 2) / s := by positivity
  have hterm : 0 ≤ 2 * rS * (2 * ((2 * R + 1) / rS + 2) / s + 2 * L + 4) := by positivity
  have key : ∀ e, e ≤ bhErr R rS L s → e * ulp ≤ 1 := fun e he => (mul_le_mul_of_nonneg_right he hu.le).trans hE
  have hk1 : ((R + 1) / rS) * ulp ≤ 1 := by
    have : (R + 1) / rS ≤ (2 * R + 1) / rS + 2 := by linarith
    have := mul_le_mul_of_nonneg_right this hu.le
    linarith
  have a3 := near_rnd hr a2 hV hk1
  rw [show (R + 1) / rS + R / rS + 2 = (2 * R + 1) / rS + 2 by rw [hsum]] at a3
  -- the logarithm
  obtain ⟨b0, b1⟩ := log_near hs (by rw [abs_neg]; exact hrs) a3 h1
  rw [abs_neg] at b1
  have b2 := hl _ b0
  have b3 : abs (Real.log |rnd (rnd (r - rS) / -rS)|) ≤ L + 1 := by
    have c1 := abs_sub_abs_le_abs_sub (Real.log |rnd (rnd (r - rS) / -rS)|) (Real.log |r / rS - 1|)
    have c2 : (2 * ((2 * R + 1) / rS + 2) / s) * ulp ≤ 1 := by
      rw [show (2 * ((2 * R + 1) / rS + 2) / s) * ulp = ((2 * R + 1) / rS + 2) * ulp / (s / 2) by field_simp]
      rw [div_le_one (by linarith)]; exact h1
    linarith
  have b4 : abs (log |rnd (rnd (r - rS) / -rS)| - Real.log |r / rS - 1|) ≤ (2 * ((2 * R + 1) / rS + 2) / s + 2 * L + 4) * ulp := by
    have c1 := abs_sub_le (log |rnd (rnd (r - rS) / -rS)|) (Real.log |rnd (rnd (r - rS) / -rS)|) (Real.log |r / rS - 1|)
    have c2 := mul_le_mul_of_nonneg_left (add_le_add_left b3 1) (by linarith [ulp_pos] : 0 ≤ 2 * ulp)
    linarith
  -- the product
  obtain ⟨K, hK0, hK2, hKf, hKe⟩ : ∃ K, 0 ≤ K ∧ K ≤ 2 * rS ∧ (if metric = .schwarzschild then rS else rnd (2 * rS)) = K ∧ lightExact metric rS r = r + K * Real.log |r / rS - 1| := by
    by_cases hm : metric = .schwarzschild
    · exact ⟨rS, hS.le, by linarith, by rw [if_pos hm], by unfold lightExact rayTime; rw [if_pos hm]; ring⟩
    · exact ⟨2 * rS, by linarith, le_rfl, by rw [if_neg hm, hr.fix (double_mem hSm)], by unfold lightExact rayTime; rw [if_neg hm]⟩
  have c1 : abs (K * log |rnd (rnd (r - rS) / -rS)| - K * Real.log |r / rS - 1|) ≤ (2 * rS * (2 * ((2 * R + 1) / rS + 2) / s + 2 * L + 4)) * ulp := by
    rw [← mul_sub, abs_mul, abs_of_nonneg hK0, mul_assoc]
    exact mul_le_mul hK2 b4 (abs_nonneg _) (by linarith)
  have c2 : abs (K * Real.log |r / rS - 1|) ≤ 2 * rS * L := by
    rw [abs_mul, abs_of_nonneg hK0]
    exact mul_le_mul hK2 hL (abs_nonneg _) (by linarith)
  have c3 := near_rnd hr c1 c2 (key _ (by unfold bhErr; linarith))
  have c4 := near_add (show |r - r| ≤ 0 * ulp by simp) c3
  have c5 : abs (r + K * Real.log |r / rS - 1|) ≤ R + 2 * rS * L := by
    refine (abs_add_le _ _).trans ?_
    rw [abs_of_nonneg hr0]; linarith
  have c6 := near_rnd hr c4 c5 (key _ (by unfold bhErr; linarith))
  rw [hKe]
  refine ⟨?_, c5⟩
  unfold lightFl
  dsimp only
  rw [hKf, nR, sub_zero, hr.fix hrm, add_zero, hr.fix hrm]
  refine c6.trans (le_of_eq ?_)
  ring

set_option maxHeartbeats 1000000 in
/-- **C104, accuracy in black hole spacetimes.** Let the Schwarzschild radius and the radii of two points on the same side be binary64 numbers up to `R`, `|r / rS - 1| ≥ s` and
`|log |r / rS - 1|| ≤ L` for both (away from the horizon), `|y 0 - x 0| ≤ τ`, let the logarithm be accurate and the numbers moderate. Then with `E = (bhErr R rS L s + τ + 1) / 2^53`: if the first
point precedes the second one (exactly) even after any change of its time by at most `E`, the answer computed with rounding is "first precedes second"; and this answer is only given if the first
point precedes the second one (exactly) after some change of its time by at most `E`. -/
theorem C104_BH_accuracy (hr : IsRounding rnd) (log : ℝ → ℝ) (hl : ∀ z, 0 < z → |log z - Real.log z| ≤ 2 * ulp * (|Real.log z| + 1)) (metric : BHMetric) (R rS L s τ : ℝ) (hS : 0 < rS)
    (hSm : rS ∈ Binary64) (hSR : rS ≤ R) (hs : 0 < s) (hs1 : s ≤ 1) (x y : Point) (hside : 0 ≤ x 1 * y 1) (hτ : |y 0 - x 0| ≤ τ)
    (hx : |x 1| ∈ Binary64 ∧ |x 1| ≤ R ∧ s ≤ abs (|x 1| / rS - 1) ∧ abs (Real.log (abs (|x 1| / rS - 1))) ≤ L)
    (hy : |y 1| ∈ Binary64 ∧ |y 1| ≤ R ∧ s ≤ abs (|y 1| / rS - 1) ∧ abs (Real.log (abs (|y 1| / rS - 1))) ≤ L)
    (h1 : ((2 * R + 1) / rS + 2) / 2 ^ 53 ≤ s / 2) (hE : bhErr R rS L s / 2 ^ 53 ≤ 1) :
    let E := (bhErr R rS L s + τ + 1) / 2 ^ 53
    ((∀ δ, |δ| ≤ E → (causalityBH metric rS x (later y δ)).1 = true) → (causalityBHFl rnd log metric rS x y).1 = true) ∧
    ((causalityBHFl rnd log metric rS x y).1 = true → ∃ δ, |δ| ≤ E ∧ (causalityBH metric rS x (later y δ)).1 = true) := by
  intro E
  have hu := ulp_pos
  have eu : ∀ z : ℝ, z / 2 ^ 53 = z * ulp := fun z => by unfold ulp; ring
  rw [eu] at h1 hE
  have hE' : E = (bhErr R rS L s + τ + 1) * ulp := eu _
  clear_value E
  have hR : 0 < R := by linarith
  have hL0 : 0 ≤ L := (abs_nonneg _).trans hx.2.2.2
  have hSL : 0 ≤ rS * L := by positivity
  have hτ0 : 0 ≤ τ := (abs_nonneg _).trans hτ
  have hterm : 0 ≤ 2 * rS * (2 * ((2 * R + 1) / rS + 2) / s + 2 * L + 4) := by positivity
  have hb0 : R + 1 ≤ bhErr R rS L s := by unfold bhErr; linarith
  have hE0 : 0 ≤ E := by rw [hE']; exact mul_nonneg (by linarith) hu.le
  obtain ⟨a1, a2⟩ := light_near hr hl metric hS hSm hSR (abs_nonneg (x 1)) hx.1 hx.2.1 hs hs1 hx.2.2.1 hx.2.2.2 h1 hE
  obtain ⟨b1, b2⟩ := light_near hr hl metric hS hSm hSR (abs_nonneg (y 1)) hy.1 hy.2.1 hs hs1 hy.2.2.1 hy.2.2.2 h1 hE
  -- the travel times
  have c1 := near_sub b1 a1
  have c2 : abs (lightExact metric rS |y 1| - lightExact metric rS |x 1|) ≤ 2 * (R + 2 * rS * L) := (abs_sub _ _).trans (by linarith)
  have c3 := near_rnd hr c1 c2 ((mul_le_mul_of_nonneg_right (by unfold bhErr; linarith) hu.le).trans hE)
  have c4 : abs (rnd (lightFl rnd log metric rS |y 1| - lightFl rnd log metric rS |x 1|) - (lightExact metric rS |y 1| - lightExact metric rS |x 1|)) ≤ bhErr R rS L s * ulp := by
    refine c3.trans (le_of_eq ?_)
    unfold bhErr; ring
  have c5 : abs (rnd (|x 1| - |y 1|) - (|x 1| - |y 1|)) ≤ bhErr R rS L s * ulp := by
    refine (hr.err' _).trans ?_
    have : abs (|x 1| - |y 1|) ≤ R := by
      rw [abs_le]; constructor <;> linarith [abs_nonneg (x 1), abs_nonneg (y 1), hx.2.1, hy.2.1]
    nlinarith
  have d1 : |rnd (y 0 - x 0) - (y 0 - x 0)| ≤ (τ + 1) * ulp := by
    refine (hr.err' _).trans ?_
    nlinarith
  set tOut := lightExact metric rS |y 1| - lightExact metric rS |x 1| with htOut
  set toh := rnd (lightFl rnd log metric rS |y 1| - lightFl rnd log metric rS |x 1|) with htoh
  obtain ⟨ti, hti, tih, htih, c6⟩ : ∃ ti, (if metric = .schwarzschild then -tOut else |x 1| - |y 1|) = ti ∧ ∃ tih, (if metric = .schwarzschild then -toh else rnd (|x 1| - |y 1|)) = tih ∧
      |tih - ti| ≤ bhErr R rS L s * ulp := by
    refine ⟨_, rfl, _, rfl, ?_⟩
    split
    · rw [show -toh - -tOut = -(toh - tOut) by ring, abs_neg]; exact c4
    · exact c5
  have d1' := abs_le.1 d1
  have c4' := abs_le.1 c4
  have c6' := abs_le.1 c6
  have hEs : E = bhErr R rS L s * ulp + (τ + 1) * ulp := by rw [hE']; ring
  have hxS : |x 1| ≠ rS := fun h => by
    have := hx.2.2.1
    rw [h, div_self hS.ne', sub_self, abs_zero] at this
    linarith
  have hyS : |y 1| ≠ rS := fun h => by
    have := hy.2.2.1
    rw [h, div_self hS.ne', sub_self, abs_zero] at this
    linarith
  -- the exact test of a shifted point
  have ex : ∀ δ, (causalityBH metric rS x (later y δ)).1 = true ↔ ¬ bhSwap metric rS x (later y δ) ∧
      (if |y 1| ≤ |x 1| ∧ |x 1| ≤ rS then tOut ≥ y 0 + δ - x 0 ∧ y 0 + δ - x 0 ≥ ti
        else if rS ≤ |x 1| ∧ |x 1| ≥ |y 1| then y 0 + δ - x 0 ≥ ti
        else if rS ≤ |x 1| ∧ |x 1| ≤ |y 1| then y 0 + δ - x 0 ≥ tOut else False) := by
    intro δ
    rw [(bh_form metric hS x _).1, ← hti]
    unfold bhTest
    simp only [later, one_ne_zero, if_false, if_true, hside, true_and]
    rfl
  have sw : ∀ δ, bhSwap metric rS x (later y δ) ↔ (metric = .schwarzschild ∧ (|x 1| < rS ∨ |y 1| < rS) ∧ |x 1| < |y 1|) ∨
      (¬ (metric = .schwarzschild ∧ (|x 1| < rS ∨ |y 1| < rS)) ∧ y 0 + δ - x 0 < 0) := fun δ => Iff.rfl
  have fl : (causalityBHFl rnd log metric rS x y).1 = true ↔ ¬ bhSwapFl rnd metric rS x y ∧
      (if |y 1| ≤ |x 1| ∧ |x 1| ≤ rS then toh ≥ rnd (y 0 - x 0) ∧ rnd (y 0 - x 0) ≥ tih
        else if rS ≤ |x 1| ∧ |x 1| ≥ |y 1| then rnd (y 0 - x 0) ≥ tih
        else if rS ≤ |x 1| ∧ |x 1| ≤ |y 1| then rnd (y 0 - x 0) ≥ toh else False) := by
    rw [(bhFl_form hr log metric rS x y).1, ← htih]
    unfold bhTestFl
    simp only [hr.nonneg hside, true_and]
    rfl
  constructor
  · intro h
    have h0 := (ex 0).1 (h 0 (by rw [abs_zero]; exact hE0))
    have hp := (ex E).1 (h E (abs_of_nonneg hE0).le)
    have hm := (ex (-E)).1 (h (-E) (by rw [abs_neg]; exact (abs_of_nonneg hE0).le))
    rw [fl]
    refine ⟨?_, ?_⟩
    · have := h0.1
      rw [sw] at this
      unfold bhSwapFl
      push Not at this ⊢
      refine ⟨this.1, fun h' => hr.nonneg ?_⟩
      have := this.2 h'
      linarith
    · have hp2 := hp.2
      have hm2 := hm.2
      split_ifs at hp2 hm2 ⊢ with k1 k2 k3
      · exact ⟨by linarith [hp2.1], by linarith [hm2.2]⟩
      · linarith
      · linarith
  · intro h
    rw [fl] at h
    obtain ⟨h2, h3⟩ := h
    have f1 : ∀ r, lightExact .schwarzschild rS r = rayTime 1 rS r := fun r => by simp [lightExact]
    have f2 : ∀ r, metric ≠ .schwarzschild → lightExact metric rS r = rayTime 2 rS r := fun r hm => by simp [lightExact, hm]
    -- if `0 ≤ y 0 + δ - x 0`, or the radii decide, the points are not exchanged
    have noswap : ∀ δ, (0 ≤ y 0 + δ - x 0 ∨ metric = .schwarzschild ∧ (|x 1| < rS ∨ |y 1| < rS)) → (metric = .schwarzschild → (|x 1| < rS ∨ |y 1| < rS) → |y 1| ≤ |x 1|) →
        ¬ bhSwap metric rS x (later y δ) := by
      intro δ h' hrad
      rw [sw]
      rintro (⟨g1, g2, g3⟩ | ⟨g1, g2⟩)
      · linarith [hrad g1 g2]
      · rcases h' with h' | h'
        · linarith
        · exact g1 h'
    split_ifs at h3 with k1 k2 k3
    · have hin : |x 1| < rS := lt_of_le_of_ne k1.2 hxS
      have il := inside_log (abs_nonneg (y 1)) k1.1 hin
      have hio : ti ≤ tOut ∧ (metric ≠ .schwarzschild → 0 ≤ ti) := by
        by_cases hm : metric = .schwarzschild
        · subst hm
          rw [if_pos rfl] at hti
          rw [← hti, htOut, f1, f1]
          unfold rayTime
          exact ⟨by linarith, fun h => absurd rfl h⟩
        · rw [if_neg hm] at hti
          rw [← hti, htOut, f2 _ hm, f2 _ hm]
          unfold rayTime
          exact ⟨by linarith, fun _ => by linarith [k1.1]⟩
      refine ⟨max ti (min tOut (y 0 - x 0)) - (y 0 - x 0), ?_, (ex _).2 ⟨noswap _ ?_ (fun _ _ => k1.1), ?_⟩⟩
      · rw [abs_le]
        constructor
        · have : min tOut (y 0 - x 0) ≤ max ti (min tOut (y 0 - x 0)) := le_max_right _ _
          rcases min_choice tOut (y 0 - x 0) with e | e <;> rw [e] at this ⊢ <;> linarith [h3.1]
        · rcases max_choice ti (min tOut (y 0 - x 0)) with e | e <;> rw [e]
          · linarith [h3.2]
          · linarith [min_le_right tOut (y 0 - x 0)]
      · by_cases hm : metric = .schwarzschild
        · exact Or.inr ⟨hm, Or.inl hin⟩
        · left
          have := le_max_left ti (min tOut (y 0 - x 0))
          linarith [hio.2 hm]
      · rw [if_pos k1]
        constructor
        · have : max ti (min tOut (y 0 - x 0)) ≤ tOut := max_le hio.1 (min_le_left _ _)
          linarith
        · linarith [le_max_left ti (min tOut (y 0 - x 0))]
    · have hout : rS < |x 1| := lt_of_le_of_ne k2.1 (Ne.symm hxS)
      refine ⟨max ti (y 0 - x 0) - (y 0 - x 0), ?_, (ex _).2 ⟨noswap _ ?_ (fun _ _ => k2.2), ?_⟩⟩
      · rw [abs_of_nonneg (by linarith [le_max_right ti (y 0 - x 0)])]
        rcases max_choice ti (y 0 - x 0) with e | e <;> rw [e] <;> linarith
      · by_cases hm : metric = .schwarzschild ∧ |y 1| < rS
        · exact Or.inr ⟨hm.1, Or.inr hm.2⟩
        · left
          have h5 : 0 ≤ ti := by
            by_cases hm' : metric = .schwarzschild
            · have hyo : rS < |y 1| := lt_of_le_of_ne (not_lt.1 fun h' => hm ⟨hm', h'⟩) (Ne.symm hyS)
              subst hm'
              rw [if_pos rfl] at hti
              have := rayTime_mono (k := 1) one_pos hS hyo k2.2
              rw [← hti, htOut, f1, f1]
              linarith
            · rw [if_neg hm'] at hti
              rw [← hti]
              linarith [k2.2]
          linarith [le_max_left ti (y 0 - x 0)]
      · rw [if_neg k1, if_pos k2]
        linarith [le_max_left ti (y 0 - x 0)]
    · have hout : rS < |x 1| := lt_of_le_of_ne k3.1 (Ne.symm hxS)
      have hmon : 0 ≤ tOut := by
        by_cases hm : metric = .schwarzschild
        · subst hm
          rw [htOut, f1, f1]
          linarith [rayTime_mono (k := 1) one_pos hS hout k3.2]
        · rw [htOut, f2 _ hm, f2 _ hm]
          linarith [rayTime_mono (k := 2) two_pos hS hout k3.2]
      refine ⟨max tOut (y 0 - x 0) - (y 0 - x 0), ?_, (ex _).2 ⟨noswap _ (Or.inl ?_) (fun _ h' => ?_), ?_⟩⟩
      · rw [abs_of_nonneg (by linarith [le_max_right tOut (y 0 - x 0)])]
        rcases max_choice tOut (y 0 - x 0) with e | e <;> rw [e] <;> linarith
      · linarith [le_max_left tOut (y 0 - x 0)]
      · rcases h' with h' | h' <;> linarith [k3.2]
      · rw [if_neg k1, if_neg k2, if_pos k3]
        linarith [le_max_left tOut (y 0 - x 0)]

/-- the hypotheses of `C104_BH_accuracy` are met: outside of a black hole of radius 1, from radius 2 to radius 3 in the time 10 -/
example : (causalityBHFl rnd64 (fun z => rnd64 (Real.log z)) .eddingtonFinkelstein 1 (lineP 0 2) (lineP 10 3)).1 = true := by
  have hm : ∀ n : ℤ, |n| ≤ 2 ^ 53 → (n : ℝ) ∈ Binary64 := fun n hn => int_mem_binary64 hn
  have l2 : abs (Real.log 2) ≤ 1 := by rw [abs_of_pos (Real.log_pos one_lt_two)]; linarith [Real.log_two_lt_d9]
  have n2 : abs (|(2 : ℝ)| / 1 - 1) = 1 := by norm_num
  have n3 : abs (|(3 : ℝ)| / 1 - 1) = 2 := by norm_num
  refine (C104_BH_accuracy C104_ieee (fun z => rnd64 (Real.log z)) (fun z _ => ?_) .eddingtonFinkelstein 4 1 1 1 10 one_pos (by simpa using hm 1 (by norm_num)) (by norm_num) one_pos le_rfl
    (lineP 0 2) (lineP 10 3) (by simp [lineP]) (by simp [lineP]) ?_ ?_ (by norm_num) (by unfold bhErr; norm_num)).1 fun δ hδ => ?_
  · have := C104_ieee.err' (Real.log z)
    have h := mul_nonneg ulp_pos.le (by positivity : 0 ≤ |Real.log z| + 1)
    linarith
  · simp only [lineP, if_true, one_ne_zero, if_false]
    rw [n2]
    exact ⟨by rw [abs_of_pos two_pos]; simpa using hm 2 (by norm_num), by norm_num, le_rfl, by rw [Real.log_one, abs_zero]; norm_num⟩
  · simp only [lineP, if_true, one_ne_zero, if_false]
    rw [n3]
    exact ⟨by rw [abs_of_pos (by norm_num)]; simpa using hm 3 (by norm_num), by norm_num, by norm_num, l2⟩
  · have h1 : |δ| ≤ 1 := hδ.trans (by unfold bhErr; norm_num)
    have h2 := abs_le.1 h1
    rw [C44_EF one_pos _ _ (by simp [lineP]) (by simp [later, lineP])]
    unfold EFLe rayTime
    simp only [later, lineP, if_true, one_ne_zero, if_false]
    rw [n2, n3, Real.log_one]
    have h3 := Real.log_two_lt_d9
    refine ⟨by norm_num, by rw [abs_of_pos (by norm_num : (0 : ℝ) < 2), abs_of_pos (by norm_num : (0 : ℝ) < 3)]; linarith, fun h => absurd h (by norm_num), fun _ _ => ?_⟩
    rw [abs_of_pos (by norm_num : (0 : ℝ) < 2), abs_of_pos (by norm_num : (0 : ℝ) < 3)]
    linarith

theorem bh_sides_neg (hr : IsRounding rnd) {z : ℝ} (h : z < -(2 : ℝ) ^ (-1075 : ℤ)) : rnd z < 0 := by
  have hp : (0 : ℝ) < 2 ^ (-1075 : ℤ) := by positivity
  have e2 : (2 : ℝ) ^ (-1074 : ℤ) = 2 * 2 ^ (-1075 : ℤ) := by
    rw [show (-1074 : ℤ) = 1 + -1075 by norm_num, zpow_add₀ (by norm_num)]; norm_num
  by_contra hc
  push Not at hc
  have hm : -(2 : ℝ) ^ (-1074 : ℤ) ∈ Binary64 := ⟨-1, -1074, by norm_num, by norm_num, by push_cast; ring⟩
  have h1 := hr.nearest z _ hm
  rw [abs_of_pos (by linarith), e2] at h1
  rcases le_or_gt z (-(2 * 2 ^ (-1075 : ℤ))) with h2 | h2
  · rw [abs_of_nonneg (by linarith)] at h1; linarith
  · rw [abs_of_neg (by linarith)] at h1; linarith

/-- **C104, sides of a black hole.** Points on different sides of a black hole get no answer, unless the product of their radii underflows. -/
theorem C104_BH_sides (hr : IsRounding rnd) (log : ℝ → ℝ) (metric : BHMetric) (rS : ℝ) (x y : Point) (h : x 1 * y 1 < -(2 : ℝ) ^ (-1075 : ℤ)) :
    causalityBHFl rnd log metric rS x y = (false, false) := by
  have hneg : rnd (x 1 * y 1) < 0 := bh_sides_neg hr h
  unfold causalityBHFl
  have : test (rnd (x 1 * y 1) < 0) = true := by simp [test, hneg]
  rw [this]
  simp

end Causets
