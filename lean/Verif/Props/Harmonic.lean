import Verif.Model.Calculations
import Mathlib.Analysis.Calculus.MeanValue
import Mathlib.Analysis.Calculus.Deriv.MeanValue
import Mathlib.Analysis.SpecialFunctions.Log.Deriv

/-! # C49, C50, C68 — harmonic numbers (calculations.py) -/

namespace Causets

open Filter Topology

/-! ## Exact values -/

theorem harmonic_eq_list (n : ℕ) : ((List.range n).map (fun (i : ℕ) => (1 : ℚ) / ((i : ℚ) + 1))).sum = harmonic n := by
  induction n with
  | zero => simp [harmonic]
  | succ n ih => rw [List.range_succ, List.map_append, List.sum_append, ih, harmonic_succ]; simp

theorem harmonic_eq_list_real (n : ℕ) : ((List.range n).map (fun (i : ℕ) => (1 : ℝ) / ((i : ℝ) + 1))).sum = (harmonic n : ℝ) := by
  induction n with
  | zero => simp [harmonic]
  | succ n ih => rw [List.range_succ, List.map_append, List.sum_append, ih, harmonic_succ]; simp

theorem fractionLoop_eq (m k : ℕ) (pre : List ℚ) (hk : pre.length = k) :
    fractionLoop m k (harmonic k) (pre ++ List.replicate m 0) = pre ++ (List.range m).map (fun i => harmonic (k + i)) := by
  induction m generalizing k pre with
  | zero => simp [fractionLoop]
  | succ m ih =>
    unfold fractionLoop
    have e1 : harmonic k + 1 / ((k : ℚ) + 1) = harmonic (k + 1) := by rw [harmonic_succ]; simp
    have e2 : (pre ++ List.replicate (m + 1) (0 : ℚ)).set k (harmonic k) = (pre ++ [harmonic k]) ++ List.replicate m 0 := by
      rw [List.replicate_succ, List.set_append_right _ _ (by omega), hk]; simp
    rw [e1, e2, ih (k + 1) _ (by simp [hk]), List.range_succ_eq_map]
    simp [Function.comp_def, Nat.add_assoc, Nat.add_comm 1]

/-- **C49, fractions.** `HarmonicNumberFraction(n)` is the exact `n`-th harmonic number (0 for a negative `n`) and `HarmonicNumberFractions(n)`
is the list of all harmonic numbers from number 0 to `n`. -/
theorem C49_fractions (n : ℤ) :
    harmonicNumberFraction n = harmonic n.toNat ∧ harmonicNumberFractions n = (List.range (n + 1).toNat).map harmonic := by
  constructor
  · unfold harmonicNumberFraction
    split
    · next h => subst h; simp [harmonic]
    · exact harmonic_eq_list _
  · unfold harmonicNumberFractions
    have := fractionLoop_eq (n + 1).toNat 0 [] rfl
    simpa using this

/-- **C49, floats.** Below the approximation threshold `HarmonicNumber(n)` is the exact harmonic number (0 for a negative `n`). -/
theorem C49_exact_int (n approximate : ℤ) (h : n < approximate) : harmonicNumber n approximate = .ok (harmonic n.toNat : ℝ) := by
  unfold harmonicNumber
  rw [if_pos h, List.map_reverse, List.sum_reverse, harmonic_eq_list_real]

/-- **C49, domain.** `HarmonicNumber(n)` raises an exception exactly if `n` is not positive and not below the threshold. -/
theorem C49_raises (n approximate : ℤ) :
    (∃ x, harmonicNumber n approximate = .error x) ↔ approximate ≤ n ∧ n ≤ 0 := by
  unfold harmonicNumber
  split
  · simp; omega
  · split
    · simp; omega
    · simp; omega

/-- C49: the threshold 0 -/
example : (0 : ℤ) ≤ 0 ∧ (0 : ℤ) ≤ 0 := by norm_num

/-- **C49, floats.** Below the approximation threshold `HarmonicNumber(n)` is the exact harmonic number. -/
theorem C49_exact (n : ℕ) (approximate : ℤ) (h : (n : ℤ) < approximate) : harmonicNumber n approximate = .ok (harmonic n : ℝ) := by
  unfold harmonicNumber
  rw [if_pos h, List.map_reverse, List.sum_reverse, Int.toNat_natCast, harmonic_eq_list_real]

theorem harmonicLoop_eq (m k : ℕ) : harmonicLoop m k (harmonic k : ℝ) = (List.range m).map (fun i => (harmonic (k + i) : ℝ)) := by
  induction m generalizing k with
  | zero => simp [harmonicLoop]
  | succ m ih =>
    unfold harmonicLoop
    have e1 : (harmonic k : ℝ) + 1 / ((k : ℝ) + 1) = (harmonic (k + 1) : ℝ) := by rw [harmonic_succ]; simp
    rw [e1, ih (k + 1), List.range_succ_eq_map]
    simp [Function.comp_def, Nat.add_assoc, Nat.add_comm 1]

theorem harmonicNumbers_length (n a : ℕ) : (harmonicNumbers n a).length = n + 1 := by
  unfold harmonicNumbers
  have : ∀ m k t, (harmonicLoop m k t).length = m := by
    intro m
    induction m with
    | zero => intros; rfl
    | succ m ih => intros; simp [harmonicLoop, ih]
  simp [this]; omega

theorem harmonicNumbers_getElem (n a k : ℕ) (hk : k ≤ n) :
    (harmonicNumbers n a)[k]? = some (if k < a then ((harmonic k : ℝ) : EReal) else harmonicEntry k) := by
  unfold harmonicNumbers
  have e := harmonicLoop_eq (min (n + 1) a) 0
  simp only [harmonic_zero, Rat.cast_zero, Nat.zero_add] at e
  rw [e]
  split
  · next h =>
    rw [List.getElem?_append_left (by simp; omega)]
    simp only [List.getElem?_map]
    rw [List.getElem?_range (by omega)]
    rfl
  · next h =>
    rw [List.getElem?_append_right (by simp; omega)]
    simp only [List.length_map, List.length_range, List.getElem?_map]
    rw [Nat.min_eq_right (by omega), List.getElem?_range (by omega)]
    simp only [Option.map_some]
    congr 2; omega

/-! ## Integer overflow -/

theorem wrap64_small {z : ℤ} (h0 : 0 ≤ z) (h : z < 2 ^ 63) : wrap64 z = z := by
  unfold wrap64
  rw [Int.bmod_eq_of_le] <;> norm_num <;> omega

theorem wrap64_eq_zero (z : ℤ) : wrap64 z = 0 ↔ (2 ^ 64 : ℤ) ∣ z := by
  unfold wrap64
  have := (Int.dvd_iff_bmod_eq_zero (a := 2 ^ 64) (b := z)).symm
  rwa [Nat.cast_pow, Nat.cast_ofNat] at this

theorem wrap64_sq (z : ℤ) : wrap64 (wrap64 z * wrap64 z) = wrap64 (z * z) := by
  unfold wrap64
  simp [Int.bmod_mul_bmod, Int.mul_bmod_bmod]

theorem harmonicEntry_form (k : ℕ) (hk : 1 ≤ k) (h : ¬ 65536 ∣ k) : ∃ r : ℝ, harmonicEntry k = (r : EReal) ∧
    ((k : ℤ) ^ 4 < 2 ^ 63 → r = harmonicExpansion k) := by
  have h4 : ¬ wrap64 (wrap64 ((k : ℤ) * k) * wrap64 ((k : ℤ) * k)) = 0 := by
    rw [wrap64_sq, wrap64_eq_zero]
    intro hd
    apply h
    have e : ((k : ℤ) * k * (k * k)) = ((k ^ 4 : ℕ) : ℤ) := by push_cast; ring
    rw [e] at hd
    have hd' : (65536 : ℕ) ^ 4 ∣ k ^ 4 := by
      have : ((2 ^ 64 : ℕ) : ℤ) ∣ ((k ^ 4 : ℕ) : ℤ) := by exact_mod_cast hd
      have := Int.natCast_dvd_natCast.1 this
      norm_num at this ⊢
      exact this
    exact (Nat.pow_dvd_pow_iff (by norm_num)).1 hd'
  have h2 : ¬ wrap64 ((k : ℤ) * k) = 0 := by
    intro h0
    apply h4
    rw [h0]; rfl
  have h1 : ¬ (k : ℤ) = 0 := by omega
  refine ⟨(Real.log k + Real.eulerMascheroniConstant + 0.5 / ((k : ℤ) : ℝ)) - 0.25 / 3 / ((wrap64 ((k : ℤ) * k) : ℤ) : ℝ) +
      0.025 / 3 / ((wrap64 (wrap64 ((k : ℤ) * k) * wrap64 ((k : ℤ) * k)) : ℤ) : ℝ), ?_, ?_⟩
  · unfold harmonicEntry npDiv
    dsimp only
    rw [if_neg h1, if_neg h2, if_neg h4, ← EReal.coe_add, ← EReal.coe_sub, ← EReal.coe_add]
  · intro hs
    have b2 : wrap64 ((k : ℤ) * k) = (k : ℤ) * k := by
      refine wrap64_small (by positivity) (lt_of_le_of_lt ?_ hs)
      have : (1 : ℤ) ≤ k := by exact_mod_cast hk
      nlinarith [mul_pos (by linarith : (0 : ℤ) < k) (by linarith : (0 : ℤ) < k)]
    have b4 : wrap64 ((k : ℤ) * k * (k * k)) = (k : ℤ) ^ 4 := by
      have e : (k : ℤ) * k * (k * k) = (k : ℤ) ^ 4 := by ring
      rw [e]
      exact wrap64_small (by positivity) hs
    rw [b2, b4]
    unfold harmonicExpansion
    push_cast
    rw [← pow_two]

/-- **C49, agreement.** Every entry of `HarmonicNumbers(n)` up to number 55108 (or below the threshold) is the value of `HarmonicNumber` for
the same threshold. -/
theorem C49_agree_partial (n approximate k : ℕ) (ha : 1 ≤ approximate) (hk : k ≤ n) (h : k ≤ 55108 ∨ k < approximate) :
    (harmonicNumbers n approximate).length = n + 1 ∧
    ∃ r, harmonicNumber k approximate = .ok r ∧ (harmonicNumbers n approximate)[k]? = some (r : EReal) := by
  refine ⟨harmonicNumbers_length _ _, ?_⟩
  rw [harmonicNumbers_getElem n approximate k hk]
  by_cases hka : k < approximate
  · exact ⟨_, C49_exact k approximate (by exact_mod_cast hka), by rw [if_pos hka]⟩
  · have h1 : k ≤ 55108 := by tauto
    obtain ⟨r, hr, he⟩ := harmonicEntry_form k (by omega) (by omega)
    refine ⟨r, ?_, by rw [if_neg hka, hr]⟩
    unfold harmonicNumber
    rw [if_neg (by omega), if_neg (by omega), he]
    · norm_cast
    · have : (k : ℤ) ^ 4 ≤ 55108 ^ 4 := pow_le_pow_left₀ (by positivity) (by exact_mod_cast h1) 4
      refine lt_of_le_of_lt this (by norm_num)

/-- the only values of the fourth power that survive int64 -/
theorem wrap64_pow4_ne {k : ℕ} (h : 55108 < k) : wrap64 ((k : ℤ) * k * (k * k)) ≠ (k : ℤ) * k * (k * k) := by
  intro he
  have h1 : (55109 : ℤ) ≤ k := by exact_mod_cast h
  have h2 : (55109 : ℤ) ^ 4 ≤ (k : ℤ) ^ 4 := pow_le_pow_left₀ (by norm_num) h1 4
  have h3 : (k : ℤ) * k * (k * k) = (k : ℤ) ^ 4 := by ring
  have h4 : wrap64 ((k : ℤ) * k * (k * k)) < 2 ^ 63 := by
    unfold wrap64
    have := Int.bmod_lt (x := (k : ℤ) * k * (k * k)) (m := 2 ^ 64) (by norm_num)
    norm_num at this ⊢
    linarith
  rw [he, h3] at h4
  norm_num at h2 h4
  linarith

/-- **C49, agreement, exactly.** For numbers `k < 3037000500` (those whose square fits into int64) the entry `k` of `HarmonicNumbers(n)` is the value of `HarmonicNumber(k)`
for the same threshold exactly if `k` is below the threshold or at most 55108. -/
theorem C49_agree_iff (n approximate k : ℕ) (ha : 1 ≤ approximate) (hk : k ≤ n) (hb : k < 3037000500) :
    (∃ r, harmonicNumber k approximate = .ok r ∧ (harmonicNumbers n approximate)[k]? = some (r : EReal)) ↔ k < approximate ∨ k ≤ 55108 := by
  refine ⟨?_, fun h => (C49_agree_partial n approximate k ha hk (by tauto)).2⟩
  rintro ⟨r, h1, h2⟩
  by_contra hcon
  push Not at hcon
  obtain ⟨hka, hk5⟩ := hcon
  rw [harmonicNumbers_getElem n approximate k hk, if_neg (by omega)] at h2
  unfold harmonicNumber at h1
  rw [if_neg (by omega), if_neg (by omega), Except.ok.injEq] at h1
  rw [Option.some.injEq] at h2
  have hk1 : (k : ℤ) * k < 2 ^ 63 := by
    have : (k : ℤ) ≤ 3037000499 := by exact_mod_cast Nat.le_of_lt_succ hb
    nlinarith
  have b2 : wrap64 ((k : ℤ) * k) = (k : ℤ) * k := wrap64_small (by positivity) hk1
  have hne := wrap64_pow4_ne hk5
  by_cases hd : wrap64 ((k : ℤ) * k * (k * k)) = 0
  · unfold harmonicEntry at h2
    dsimp only at h2
    have h1' : ¬ (k : ℤ) = 0 := by omega
    have h2' : ¬ (k : ℤ) * k = 0 := by positivity
    rw [b2, hd] at h2
    unfold npDiv at h2
    rw [if_neg h1', if_neg h2', if_pos rfl, ← EReal.coe_add, ← EReal.coe_sub, EReal.coe_add_top] at h2
    exact absurd h2.symm (EReal.coe_ne_top r)
  · unfold harmonicEntry npDiv at h2
    dsimp only at h2
    have h1' : ¬ (k : ℤ) = 0 := by omega
    have h2' : ¬ (k : ℤ) * k = 0 := by positivity
    rw [b2, if_neg h1', if_neg h2', if_neg hd, ← EReal.coe_add, ← EReal.coe_sub, ← EReal.coe_add, EReal.coe_eq_coe_iff, ← h1] at h2
    unfold harmonicExpansion at h2
    have hk0 : (0 : ℝ) < k := by exact_mod_cast (by omega : 0 < k)
    have h3 : (0.025 : ℝ) / 3 / ((wrap64 ((k : ℤ) * k * (k * k)) : ℤ) : ℝ) = 0.025 / 3 / (k : ℝ) ^ 4 := by
      push_cast at h2 ⊢
      rw [← pow_two] at h2
      linarith
    apply hne
    have hw : ((wrap64 ((k : ℤ) * k * (k * k)) : ℤ) : ℝ) ≠ 0 := by exact_mod_cast hd
    have h5 : ((wrap64 ((k : ℤ) * k * (k * k)) : ℤ) : ℝ) = (k : ℝ) ^ 4 := by
      field_simp at h3
      linarith
    have h6 : (wrap64 ((k : ℤ) * k * (k * k)) : ℤ) = (k : ℤ) ^ 4 := by exact_mod_cast h5
    rw [h6]; ring

/-- **C49, agreement, refuted.** For the default threshold the two functions disagree for every vector that reaches beyond 55108. -/
theorem C49_agree_refuted (n : ℕ) (hn : 55109 ≤ n) :
    ¬ ∀ k ≤ n, ∃ r, harmonicNumber k 100 = .ok r ∧ (harmonicNumbers n 100)[k]? = some (r : EReal) := by
  intro h
  have := (C49_agree_iff n 100 55109 (by norm_num) hn (by norm_num)).1 (h 55109 hn)
  omega

/-- C49: the smallest vector with a disagreement -/
example : 55109 ≤ 55109 ∧ 55109 < 3037000500 := by norm_num

/-- C49: an instance above and one below the threshold -/
example : (1 : ℕ) ≤ 100 ∧ 55108 ≤ 60000 ∧ ((55108 : ℕ) ≤ 55108 ∨ 55108 < 100) := by norm_num

/-- **C50.** The entry number `k` of `HarmonicNumbers(n)` is finite exactly if `k` is below the threshold or not a multiple of 65536; in
particular all entries are finite for every `n < 65536`. -/
theorem C50_finite_partial (n approximate k : ℕ) (ha : 1 ≤ approximate) (hk : k ≤ n) :
    (∃ r : ℝ, (harmonicNumbers n approximate)[k]? = some (r : EReal)) ↔ k < approximate ∨ ¬ 65536 ∣ k := by
  rw [harmonicNumbers_getElem n approximate k hk]
  by_cases hka : k < approximate
  · simp [hka]
  · rw [if_neg hka]
    constructor
    · rintro ⟨r, hr⟩
      right
      rintro ⟨m, hm⟩
      have e4 : wrap64 (wrap64 ((k : ℤ) * k) * wrap64 ((k : ℤ) * k)) = 0 := by
        rw [wrap64_sq, wrap64_eq_zero, hm]
        exact ⟨(m : ℤ) ^ 4, by push_cast; ring⟩
      rw [Option.some.injEq] at hr
      unfold harmonicEntry at hr
      simp only at hr
      rw [e4] at hr
      have e : npDiv (0.025 / 3) 0 = ⊤ := by simp [npDiv]
      rw [e] at hr
      rcases eq_or_ne (((Real.log k + Real.eulerMascheroniConstant : ℝ) : EReal) + npDiv 0.5 k - npDiv (0.25 / 3) (wrap64 ((k : ℤ) * k))) ⊥ with h | h
      · rw [h, EReal.bot_add] at hr
        exact absurd hr.symm (EReal.coe_ne_bot r)
      · rw [EReal.add_top_of_ne_bot h] at hr
        exact absurd hr.symm (EReal.coe_ne_top r)
    · rintro (h | h)
      · exact absurd h hka
      · obtain ⟨r, hr, -⟩ := harmonicEntry_form k (by omega) h
        exact ⟨r, by rw [hr]⟩

/-- **C50, refuted.** For the default threshold the vector contains an infinite entry for every `n ≥ 65536`. -/
theorem C50_refuted (n : ℕ) (hn : 65536 ≤ n) : ¬ ∀ k ≤ n, ∃ r : ℝ, (harmonicNumbers n 100)[k]? = some (r : EReal) := by
  intro h
  have := (C50_finite_partial n 100 65536 (by norm_num) hn).1 (h 65536 hn)
  norm_num at this

/-! ## The error of the asymptotic expansion -/

/-- the expansion without the Euler–Mascheroni constant, with coefficient `c` of the term of order 6 -/
noncomputable def expS (c x : ℝ) : ℝ := Real.log x + 1 / (2 * x) - 1 / (12 * x ^ 2) + 1 / (120 * x ^ 4) - c / x ^ 6

/-- its steps, compared with the steps of the harmonic numbers -/
noncomputable def stepS (c x : ℝ) : ℝ := 1 / (x + 1) - (expS c (x + 1) - expS c x)

theorem hasDerivAt_expS (c : ℝ) {x : ℝ} (hx : 0 < x) :
    HasDerivAt (expS c) (1 / x - 1 / (2 * x ^ 2) + 1 / (6 * x ^ 3) - 1 / (30 * x ^ 5) + 6 * c / x ^ 7) x := by
  have h1 := Real.hasDerivAt_log hx.ne'
  have hp : ∀ (a : ℝ) (k : ℕ), HasDerivAt (fun y : ℝ => a / y ^ k) (-(a * k) / x ^ (k + 1)) x := by
    intro a k
    have := (hasDerivAt_pow k x).inv (pow_ne_zero k hx.ne')
    have := this.const_mul a
    refine (this.congr_deriv ?_)
    rcases k with _ | k
    · simp
    · simp only [Nat.add_sub_cancel]
      field_simp
      ring
  have h2 := ((h1.add (hp (1 / 2) 1)).sub (hp (1 / 12) 2)).add (hp (1 / 120) 4) |>.sub (hp c 6)
  have e : expS c = fun y => Real.log y + 1 / 2 / y ^ 1 - 1 / 12 / y ^ 2 + 1 / 120 / y ^ 4 - c / y ^ 6 := by
    funext y; unfold expS
    simp only [pow_one, div_div]
  rw [e]
  refine h2.congr_deriv ?_
  push_cast
  field_simp
  ring

theorem hasDerivAt_stepS (c : ℝ) {x : ℝ} (hx : 0 < x) :
    HasDerivAt (stepS c) (-1 / (x + 1) ^ 2 - ((1 / (x + 1) - 1 / (2 * (x + 1) ^ 2) + 1 / (6 * (x + 1) ^ 3) - 1 / (30 * (x + 1) ^ 5) + 6 * c / (x + 1) ^ 7)
      - (1 / x - 1 / (2 * x ^ 2) + 1 / (6 * x ^ 3) - 1 / (30 * x ^ 5) + 6 * c / x ^ 7))) x := by
  have hx1 : 0 < x + 1 := by linarith
  have h0 : HasDerivAt (fun y : ℝ => 1 / (y + 1)) (-1 / (x + 1) ^ 2) x := by
    have := ((hasDerivAt_id x).add_const 1).inv hx1.ne'
    simp only [one_div]
    exact this
  have h1 := (hasDerivAt_expS c hx1).comp_add_const x 1
  exact h0.sub (h1.sub (hasDerivAt_expS c hx))

theorem expS_diff_tendsto (c : ℝ) : Tendsto (stepS c) atTop (𝓝 0) := by
  have hx : Tendsto (fun x : ℝ => x) atTop atTop := tendsto_id
  have hx1 : Tendsto (fun x : ℝ => x + 1) atTop atTop := tendsto_atTop_add_const_right _ _ tendsto_id
  have hinv : ∀ (u : ℝ → ℝ), Tendsto u atTop atTop → ∀ (a : ℝ) (k : ℕ), k ≠ 0 → Tendsto (fun x => a / (u x) ^ k) atTop (𝓝 0) := by
    intro u hu a k hk
    exact ((tendsto_pow_atTop hk).comp hu).const_div_atTop a
  have hlog : Tendsto (fun x : ℝ => Real.log (x + 1) - Real.log x) atTop (𝓝 0) := Real.tendsto_log_comp_add_sub_log 1
  have hq : ∀ (u : ℝ → ℝ), Tendsto u atTop atTop → Tendsto (fun x => 1 / 2 / (u x) ^ 1 - 1 / 12 / (u x) ^ 2 + 1 / 120 / (u x) ^ 4 - c / (u x) ^ 6)
      atTop (𝓝 0) := by
    intro u hu
    have := (((hinv u hu (1 / 2) 1 (by norm_num)).sub (hinv u hu (1 / 12) 2 (by norm_num))).add (hinv u hu (1 / 120) 4 (by norm_num))).sub
      (hinv u hu c 6 (by norm_num))
    simpa using this
  have h := (hinv _ hx1 1 1 one_ne_zero).sub ((hlog.add ((hq _ hx1).sub (hq _ hx))))
  simp only [sub_zero, add_zero] at h
  refine h.congr fun x => ?_
  unfold stepS expS
  simp only [pow_one, div_div]
  ring

theorem stepS_zero_nonneg {x : ℝ} (hx : 0 < x) : 0 ≤ stepS 0 x := by
  have hanti : AntitoneOn (stepS 0) (Set.Ici x) := by
    apply antitoneOn_of_deriv_nonpos (convex_Ici x)
    · intro y hy
      exact (hasDerivAt_stepS 0 (lt_of_lt_of_le hx hy)).continuousAt.continuousWithinAt
    · intro y hy
      rw [interior_Ici] at hy
      exact (hasDerivAt_stepS 0 (hx.trans hy)).differentiableAt.differentiableWithinAt
    · intro y hy
      rw [interior_Ici] at hy
      have hy0 : 0 < y := hx.trans hy
      rw [(hasDerivAt_stepS 0 hy0).deriv]
      have : -1 / (y + 1) ^ 2 - ((1 / (y + 1) - 1 / (2 * (y + 1) ^ 2) + 1 / (6 * (y + 1) ^ 3) - 1 / (30 * (y + 1) ^ 5) + 6 * 0 / (y + 1) ^ 7)
          - (1 / y - 1 / (2 * y ^ 2) + 1 / (6 * y ^ 3) - 1 / (30 * y ^ 5) + 6 * 0 / y ^ 7)) =
          -((1 / 30 + y / 6 + y ^ 2 / 6) / (y ^ 5 * (y + 1) ^ 5)) := by
        field_simp
        ring
      rw [this, neg_nonpos]
      positivity
  refine le_of_tendsto (expS_diff_tendsto 0) ?_
  filter_upwards [eventually_ge_atTop x] with y hy
  exact hanti (Set.mem_Ici.2 le_rfl) (Set.mem_Ici.2 hy) hy

theorem stepS_six_nonpos {x : ℝ} (hx : 0 < x) : stepS (1 / 252) x ≤ 0 := by
  have hmono : MonotoneOn (stepS (1 / 252)) (Set.Ici x) := by
    apply monotoneOn_of_deriv_nonneg (convex_Ici x)
    · intro y hy
      exact (hasDerivAt_stepS _ (lt_of_lt_of_le hx hy)).continuousAt.continuousWithinAt
    · intro y hy
      rw [interior_Ici] at hy
      exact (hasDerivAt_stepS _ (hx.trans hy)).differentiableAt.differentiableWithinAt
    · intro y hy
      rw [interior_Ici] at hy
      have hy0 : 0 < y := hx.trans hy
      rw [(hasDerivAt_stepS _ hy0).deriv]
      have : -1 / (y + 1) ^ 2 - ((1 / (y + 1) - 1 / (2 * (y + 1) ^ 2) + 1 / (6 * (y + 1) ^ 3) - 1 / (30 * (y + 1) ^ 5) + 6 * (1 / 252) / (y + 1) ^ 7)
          - (1 / y - 1 / (2 * y ^ 2) + 1 / (6 * y ^ 3) - 1 / (30 * y ^ 5) + 6 * (1 / 252) / y ^ 7)) =
          (1 / 42 + y / 6 + 7 * y ^ 2 / 15 + 3 * y ^ 3 / 5 + 3 * y ^ 4 / 10) / (y ^ 7 * (y + 1) ^ 7) := by
        field_simp
        ring
      rw [this]
      positivity
  refine ge_of_tendsto (expS_diff_tendsto (1 / 252)) ?_
  filter_upwards [eventually_ge_atTop x] with y hy
  exact hmono (Set.mem_Ici.2 le_rfl) (Set.mem_Ici.2 hy) hy

/-- the harmonic numbers minus the expansion tend to the Euler–Mascheroni constant -/
theorem harmonic_sub_expS_tendsto (c : ℝ) :
    Tendsto (fun n : ℕ => (harmonic n : ℝ) - expS c n) atTop (𝓝 Real.eulerMascheroniConstant) := by
  have hn : Tendsto (fun n : ℕ => (n : ℝ)) atTop atTop := tendsto_natCast_atTop_atTop
  have hinv : ∀ (a : ℝ) (k : ℕ), k ≠ 0 → Tendsto (fun n : ℕ => a / (n : ℝ) ^ k) atTop (𝓝 0) := by
    intro a k hk
    exact ((tendsto_pow_atTop hk).comp hn).const_div_atTop a
  have h := Real.tendsto_harmonic_sub_log.sub ((((hinv (1 / 2) 1 (by norm_num)).sub (hinv (1 / 12) 2 (by norm_num))).add
    (hinv (1 / 120) 4 (by norm_num))).sub (hinv c 6 (by norm_num)))
  simp only [sub_zero, add_zero] at h
  refine h.congr fun x => ?_
  unfold expS
  simp only [pow_one, div_div]
  ring

theorem harmonic_step (c : ℝ) (n : ℕ) : ((harmonic (n + 1) : ℝ) - expS c ((n + 1 : ℕ) : ℝ)) - ((harmonic n : ℝ) - expS c n) = stepS c n := by
  rw [harmonic_succ]
  unfold stepS
  push_cast
  rw [one_div]
  ring

/-- **C68.** For every `n ≥ 1` at or above the threshold, `HarmonicNumber(n)` exceeds the exact harmonic number by at most `1 / (252 n^6)` and is
never smaller (in exact arithmetic). -/
theorem C68_expansion_error (n : ℕ) (approximate : ℤ) (hn : 1 ≤ n) (h : approximate ≤ n) :
    ∃ v, harmonicNumber n approximate = .ok v ∧ (harmonic n : ℝ) ≤ v ∧ v - (harmonic n : ℝ) ≤ 1 / (252 * (n : ℝ) ^ 6) := by
  refine ⟨harmonicExpansion n, ?_, ?_, ?_⟩
  · unfold harmonicNumber
    rw [if_neg (by omega), if_neg (by omega)]
    norm_cast
  · have e : harmonicExpansion n = Real.eulerMascheroniConstant + expS 0 n := by
      unfold harmonicExpansion expS
      have : (n : ℝ) ≠ 0 := by positivity
      field_simp
      ring
    rw [e]
    have hmono : MonotoneOn (fun n : ℕ => (harmonic n : ℝ) - expS 0 n) (Set.Ici n) := by
      refine monotoneOn_nat_Ici_of_le_succ fun m hm => ?_
      have h1 := harmonic_step 0 m
      have h2 := stepS_zero_nonneg (x := (m : ℝ)) (by exact_mod_cast lt_of_lt_of_le hn hm)
      linarith
    have : (harmonic n : ℝ) - expS 0 n ≤ Real.eulerMascheroniConstant := by
      refine ge_of_tendsto (harmonic_sub_expS_tendsto 0) ?_
      filter_upwards [eventually_ge_atTop n] with m hm
      exact hmono (Set.mem_Ici.2 le_rfl) (Set.mem_Ici.2 hm) hm
    linarith
  · have e : harmonicExpansion n = Real.eulerMascheroniConstant + expS (1 / 252) n + 1 / (252 * (n : ℝ) ^ 6) := by
      unfold harmonicExpansion expS
      have : (n : ℝ) ≠ 0 := by positivity
      field_simp
      ring
    rw [e]
    have hanti : AntitoneOn (fun n : ℕ => (harmonic n : ℝ) - expS (1 / 252) n) (Set.Ici n) := by
      refine antitoneOn_nat_Ici_of_succ_le fun m hm => ?_
      have h1 := harmonic_step (1 / 252) m
      have h2 := stepS_six_nonpos (x := (m : ℝ)) (by exact_mod_cast lt_of_lt_of_le hn hm)
      linarith
    have : Real.eulerMascheroniConstant ≤ (harmonic n : ℝ) - expS (1 / 252) n := by
      refine le_of_tendsto (harmonic_sub_expS_tendsto (1 / 252)) ?_
      filter_upwards [eventually_ge_atTop n] with m hm
      exact hanti (Set.mem_Ici.2 le_rfl) (Set.mem_Ici.2 hm) hm
    linarith

/-- C68: the default threshold -/
example : (1 : ℕ) ≤ 100 ∧ (100 : ℤ) ≤ (100 : ℕ) := by norm_num

end Causets
