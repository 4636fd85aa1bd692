import Verif.Props.IeeeAgree
import Verif.Props.FloatBH
import Verif.Props.Horizon

/-! # C116 — black hole spacetimes with `inf`, `nan` and points on the horizon -/

namespace Causets

open NpReal

variable {rnd : ℝ → ℝ}

/-- the test after the optional exchange of the points -/
noncomputable def bhTestI (rnd log : ℝ → ℝ) (metric : BHMetric) (rS : ℝ) (rx ry tDelta : NpReal) : Bool :=
  let tOut := subF rnd (lightIeee rnd log metric rS ry) (lightIeee rnd log metric rS rx)
  let tIn := if test (metric = .schwarzschild) then tOut.neg else subF rnd rx ry
  if rx.ge ry && NpReal.ge (fin rS) rx then tOut.ge tDelta && tDelta.ge tIn
  else if rx.ge (fin rS) && rx.ge ry then tDelta.ge tIn
  else if rx.ge (fin rS) && ry.ge rx then tDelta.ge tOut
  else false

/-- are the points exchanged? -/
noncomputable def bhSwapI (rnd : ℝ → ℝ) (metric : BHMetric) (rS : ℝ) (x y : FPoint) : Bool :=
  if test (metric = .schwarzschild) && ((x 1).abs.lt (fin rS) || (y 1).abs.lt (fin rS)) then (x 1).abs.lt (y 1).abs else (subF rnd (y 0) (x 0)).lt (fin 0)

theorem bhI_form (log : ℝ → ℝ) (metric : BHMetric) (rS : ℝ) (x y : FPoint) :
    causalityBHIeee rnd log metric rS x y =
      if (mulF rnd (x 1) (y 1)).lt (fin 0) then (false, false)
      else if bhSwapI rnd metric rS x y then (false, bhTestI rnd log metric rS (y 1).abs (x 1).abs (subF rnd (y 0) (x 0)).neg)
      else (bhTestI rnd log metric rS (x 1).abs (y 1).abs (subF rnd (y 0) (x 0)), false) := by
  unfold causalityBHIeee
  dsimp only
  split_ifs with h1 h2 h3 h3
  · rfl
  all_goals
    unfold bhSwapI at *
    simp_all [bhTestI]

/-! ## nan -/

theorem bhTestI_nan (log : ℝ → ℝ) (metric : BHMetric) (rS : ℝ) {rx ry t : NpReal} (h : rx = nan ∨ ry = nan ∨ t = nan) : bhTestI rnd log metric rS rx ry t = false := by
  unfold bhTestI
  rcases h with rfl | rfl | rfl <;> simp

/-- **C116, nan in black hole spacetimes.** If the time or the radius of one of the points is `nan` they are not related. -/
theorem C116_BH_nan (log : ℝ → ℝ) (metric : BHMetric) (rS : ℝ) (x y : FPoint) (h : x 0 = nan ∨ x 1 = nan ∨ y 0 = nan ∨ y 1 = nan) : causalityBHIeee rnd log metric rS x y = (false, false) := by
  have hb : ((x 1).abs = nan ∨ (y 1).abs = nan ∨ subF rnd (y 0) (x 0) = nan) ∧ ((y 1).abs = nan ∨ (x 1).abs = nan ∨ (subF rnd (y 0) (x 0)).neg = nan) := by
    rcases h with h | h | h | h <;> rw [h] <;> simp [NpReal.abs, NpReal.neg]
  rw [bhI_form, bhTestI_nan log metric rS hb.1, bhTestI_nan log metric rS hb.2]
  split_ifs <;> rfl

theorem ge_zero_of_not_lt {a : NpReal} (h : a ≠ nan) (h' : a.lt (fin 0) = false) : a.ge (fin 0) = true := by
  cases a with
  | nan => exact absurd rfl h
  | ninf => simp [NpReal.lt] at h'
  | pinf => rfl
  | fin r => simpa [NpReal.lt, NpReal.ge, test] using h'

/-- **C116, directions in black hole spacetimes.** For points with any binary64 times and radii, `inf` and `nan` included: never both directions; in Eddington–Finkelstein coordinates, and in
Schwarzschild coordinates if no point is inside, an earlier answer means an earlier time, without rounding error. -/
theorem C116_BH_directions (hr : IsRounding rnd) (log : ℝ → ℝ) (metric : BHMetric) (rS : ℝ) (x y : FPoint) (hx : (x 0).Is64) (hy : (y 0).Is64) :
    let c := causalityBHIeee rnd log metric rS x y
    ¬ (c.1 = true ∧ c.2 = true) ∧
    ((metric = .schwarzschild → (fin rS).Le (x 1).abs ∧ (fin rS).Le (y 1).abs) → (c.1 = true → (x 0).Le (y 0)) ∧ (c.2 = true → (y 0).Lt (x 0))) := by
  intro c
  have hc : c = _ := bhI_form log metric rS x y
  refine ⟨?_, fun hout => ?_⟩
  · rw [hc]; split_ifs <;> simp
  · have hout' : metric = .schwarzschild → (x 1).abs.lt (fin rS) = false ∧ (y 1).abs.lt (fin rS) = false := by
      have : ∀ {a : NpReal}, (fin rS).Le a → a.lt (fin rS) = false := by
        rintro a ⟨s, t, h1, h2, h3⟩
        obtain rfl := Option.some.inj h1
        cases a with
        | nan => simp [NpReal.val] at h2
        | ninf =>
          obtain rfl := Option.some.inj h2
          exact absurd h3 (by simp)
        | pinf => rfl
        | fin r =>
          obtain rfl := Option.some.inj h2
          simpa [NpReal.lt, test] using h3
      exact fun h => ⟨this (hout h).1, this (hout h).2⟩
    have hsw : bhSwapI rnd metric rS x y = (subF rnd (y 0) (x 0)).lt (fin 0) := by
      unfold bhSwapI
      by_cases hM : metric = .schwarzschild
      · simp [(hout' hM).1, (hout' hM).2]
      · simp [test, hM]
    rw [hc, hsw]
    split_ifs with h1 h2
    · simp
    · exact ⟨by simp, fun _ => subF_lt_zero hr hx hy h2⟩
    · refine ⟨fun h => subF_ge_zero hr hx hy (ge_zero_of_not_lt (fun e => ?_) (by simpa using h2)), by simp⟩
      rw [e, bhTestI_nan log metric rS (.inr (.inr rfl))] at h
      simp at h

/-! ## agreement -/

/-- the outgoing light ray off the horizon -/
theorem lightIeee_fin (hr : IsRounding rnd) (log : ℝ → ℝ) (hl : ∀ z, 0 < z → |log z - Real.log z| ≤ 2 * ulp * (|Real.log z| + 1)) (metric : BHMetric) {rS r : ℝ}
    (hS : (2 : ℝ) ^ (-400 : ℤ) ≤ rS) (hS' : rS ≤ 2 ^ 400) (h : |r| ≤ 2 ^ 400) (hoff : (2 : ℝ) ^ (-400 : ℤ) ≤ |r - rS|) :
    lightIeee rnd log metric rS (fin r) = fin (lightFl rnd log metric rS r) ∧ |lightFl rnd log metric rS r| ≤ 2 ^ 414 := by
  have hS0 : 0 < rS := lt_of_lt_of_le (by positivity) hS
  have hSa : |rS| ≤ 2 ^ 400 := by rwa [abs_of_pos hS0]
  have z0 : ∀ k : ℕ, |(0 : ℝ)| ≤ 2 ^ k := fun k => by rw [abs_zero]; positivity
  have pm : ∀ e : ℤ, -1074 ≤ e → (2 : ℝ) ^ e ∈ Binary64 := fun e he => ⟨1, e, by norm_num, he, by simp⟩
  obtain ⟨a1, a1'⟩ := subF_fin hr (by norm_num) h (z0 400)
  obtain ⟨a2, a2'⟩ := addF_fin hr (by norm_num) a1' (z0 401)
  obtain ⟨b1, b1'⟩ := subF_fin hr (by norm_num) h hSa
  have blo : (2 : ℝ) ^ (-400 : ℤ) ≤ |rnd (r - rS)| := by
    rw [hr.abs, ← hr.fix (pm (-400) (by norm_num))]; exact hr.mono hoff
  have clo : (2 : ℝ) ^ (-400 : ℤ) ≤ |rnd (0 - rS)| := by
    rw [hr.abs, zero_sub, abs_neg, abs_of_pos hS0, ← hr.fix (pm (-400) (by norm_num))]; exact hr.mono hS
  have chi : |rnd (0 - rS)| ≤ 2 ^ 400 := hr.abs_le_pow (by rwa [zero_sub, abs_neg])
  have cpos : 0 < |rnd (0 - rS)| := lt_of_lt_of_le (by positivity) clo
  have qlo : (2 : ℝ) ^ (-800 : ℤ) ≤ |rnd (r - rS) / rnd (0 - rS)| := by
    rw [abs_div, le_div_iff₀ cpos]
    calc (2 : ℝ) ^ (-800 : ℤ) * |rnd (0 - rS)| ≤ 2 ^ (-800 : ℤ) * 2 ^ 400 := mul_le_mul_of_nonneg_left chi (by positivity)
      _ = 2 ^ (-400 : ℤ) := by rw [← zpow_natCast, ← zpow_add₀ (by norm_num)]; norm_num
      _ ≤ _ := blo
  have qhi : |rnd (r - rS) / rnd (0 - rS)| ≤ 2 ^ 801 := by
    rw [abs_div, div_le_iff₀ cpos]
    calc |rnd (r - rS)| ≤ 2 ^ 401 := b1'
      _ = 2 ^ 801 * 2 ^ (-400 : ℤ) := by rw [← zpow_natCast, ← zpow_natCast, ← zpow_add₀ (by norm_num)]; norm_num
      _ ≤ _ := mul_le_mul_of_nonneg_left clo (by positivity)
  have c1 : divF rnd (rnd (0 - rS)) (fin (rnd (r - rS))) = fin (rnd (rnd (r - rS) / rnd (0 - rS))) := divF_fin hr (by norm_num) qhi
  set z := |rnd (rnd (r - rS) / rnd (0 - rS))| with hz
  have zlo : (2 : ℝ) ^ (-800 : ℤ) ≤ z := by
    rw [hz, hr.abs, ← hr.fix (pm (-800) (by norm_num))]; exact hr.mono qlo
  have zhi : z ≤ 2 ^ 801 := hr.abs_le_pow qhi
  have zpos : 0 < z := lt_of_lt_of_le (by positivity) zlo
  have llog : |Real.log z| ≤ 2 ^ 10 := by
    have l2 := Real.log_two_lt_d9
    have l2' := Real.log_two_gt_d9
    rw [abs_le]
    constructor
    · have := Real.log_le_log (by positivity) zlo
      rw [Real.log_zpow] at this
      push_cast at this
      norm_num at *
      linarith
    · have := Real.log_le_log zpos zhi
      rw [Real.log_pow] at this
      push_cast at this
      clear zhi qhi
      norm_num at *
      linarith
  have lb := lib_le_pow (hl z zpos) llog
  have d1 : logF log (fin z) = fin (log z) := by simp [logF, test, zpos.ne']
  have hk : ∃ k : ℝ, (if metric = .schwarzschild then fin rS else cap (rnd (2 * rS))) = fin k ∧ (if metric = .schwarzschild then rS else rnd (2 * rS)) = k ∧ |k| ≤ 2 ^ 401 := by
    split_ifs
    · exact ⟨_, rfl, rfl, absUp hSa (by norm_num)⟩
    · have : |rnd (2 * rS)| ≤ 2 ^ 401 := hr.abs_le_pow (by
        rw [abs_mul, abs_two, pow_succ, mul_comm]
        exact mul_le_mul_of_nonneg_right hSa (by norm_num))
      exact ⟨_, cap_of_lt (this.trans_lt (pow_lt_huge (by norm_num))), rfl, this⟩
  obtain ⟨k, k1, k2, k3⟩ := hk
  obtain ⟨e1, e1'⟩ := mulF_fin hr (by norm_num) k3 lb
  obtain ⟨f1, f1'⟩ := addF_fin hr (k := 412) (by norm_num) (absUp a2' (by norm_num)) e1'
  unfold lightIeee lightFl
  dsimp only
  rw [k1, k2, a1, a2, b1, c1]
  simp only [NpReal.abs, ← hz]
  rw [d1, e1, f1]
  exact ⟨rfl, absUp f1' (by norm_num)⟩

/-- the outgoing light ray on the horizon -/
theorem lightIeee_horizon (hr : IsRounding rnd) (log : ℝ → ℝ) (metric : BHMetric) {rS : ℝ} (hS : 0 < rS) (hm : rS ∈ Binary64) (hS' : rS ≤ 2 ^ 400) :
    lightIeee rnd log metric rS (fin rS) = ninf := by
  have hSa : |rS| ≤ 2 ^ 400 := by rwa [abs_of_pos hS]
  have z0 : ∀ k : ℕ, |(0 : ℝ)| ≤ 2 ^ k := fun k => by rw [abs_zero]; positivity
  obtain ⟨a1, a1'⟩ := subF_fin hr (by norm_num) hSa (z0 400)
  obtain ⟨a2, a2'⟩ := addF_fin hr (by norm_num) a1' (z0 401)
  obtain ⟨b1, b1'⟩ := subF_fin hr (by norm_num) hSa hSa
  have hk : (if metric = .schwarzschild then fin rS else cap (rnd (2 * rS))).sign = 1 := by
    split_ifs
    · simp [NpReal.sign, test, hS]
    · have h2 : rnd rS ≤ rnd (2 * rS) := hr.mono (by linarith)
      rw [hr.fix hm] at h2
      have h3 : 0 < rnd (2 * rS) := by linarith
      rcases cap_nonneg h3.le with e | e <;> rw [e] <;> simp [NpReal.sign, test, h3]
  have c1 : divF rnd (rnd (0 - rS)) (fin (rnd (rS - rS))) = fin 0 := by
    simp only [divF, sub_self, hr.zero, zero_div]
    exact cap_of_lt (by rw [abs_zero]; exact huge_pos)
  unfold lightIeee
  dsimp only
  rw [a1, a2, b1, c1]
  simp only [NpReal.abs, abs_zero, logF, test, decide_true, if_true]
  have : mulF rnd (if metric = .schwarzschild then fin rS else cap (rnd (2 * rS))) ninf = ninf := by
    generalize (if metric = .schwarzschild then fin rS else cap (rnd (2 * rS))) = k at hk
    cases k with
    | nan => simp [NpReal.sign] at hk
    | ninf => norm_num [NpReal.sign] at hk
    | pinf => simp [mulF, NpReal.sign, infOf, test]
    | fin a => 
      simp only [mulF, hk]
      simp [NpReal.sign, infOf, test]
  rw [this]
  rfl

/-- the points of the following theorems: time and radius of moderate size -/
def bhPoint (x : Point) : FPoint := fun i => fin (x i)

/-- **C116, black holes without overflow.** If times and radii are at most `2^400` in absolute value, the Schwarzschild radius is between `2^-400` and `2^400` and the points are at least `2^-400`
off the horizon, the answer is the one of the arithmetic without overflow, so the theorems of C104 hold for it. -/
theorem C116_BH_agree (hr : IsRounding rnd) (log : ℝ → ℝ) (hl : ∀ z, 0 < z → |log z - Real.log z| ≤ 2 * ulp * (|Real.log z| + 1)) (metric : BHMetric) {rS : ℝ}
    (hS : (2 : ℝ) ^ (-400 : ℤ) ≤ rS) (hS' : rS ≤ 2 ^ 400) (x y : Point) (hx : ∀ i < 2, |x i| ≤ 2 ^ 400) (hy : ∀ i < 2, |y i| ≤ 2 ^ 400)
    (hxo : (2 : ℝ) ^ (-400 : ℤ) ≤ abs (|x 1| - rS)) (hyo : (2 : ℝ) ^ (-400 : ℤ) ≤ abs (|y 1| - rS)) :
    causalityBHIeee rnd log metric rS (bhPoint x) (bhPoint y) = causalityBHFl rnd log metric rS x y := by
  have x0 := hx 0 (by norm_num)
  have x1 := hx 1 (by norm_num)
  have y0 := hy 0 (by norm_num)
  have y1 := hy 1 (by norm_num)
  obtain ⟨lx, lx'⟩ := lightIeee_fin hr log hl metric hS hS' (by rwa [abs_abs]) hxo
  obtain ⟨ly, ly'⟩ := lightIeee_fin hr log hl metric hS hS' (by rwa [abs_abs]) hyo
  obtain ⟨m1, -⟩ := mulF_fin hr (by norm_num) x1 y1
  obtain ⟨t1, -⟩ := subF_fin hr (by norm_num) y0 x0
  obtain ⟨o1, -⟩ := subF_fin hr (by norm_num) ly' lx'
  obtain ⟨o2, -⟩ := subF_fin hr (by norm_num) lx' ly'
  obtain ⟨i1, -⟩ := subF_fin hr (k := 400) (by norm_num) (show abs |x 1| ≤ _ by rwa [abs_abs]) (show abs |y 1| ≤ _ by rwa [abs_abs])
  obtain ⟨i2, -⟩ := subF_fin hr (k := 400) (by norm_num) (show abs |y 1| ≤ _ by rwa [abs_abs]) (show abs |x 1| ≤ _ by rwa [abs_abs])
  have ax : NpReal.abs (bhPoint x 1) = fin |x 1| := rfl
  have ay : NpReal.abs (bhPoint y 1) = fin |y 1| := rfl
  have hm : mulF rnd (bhPoint x 1) (bhPoint y 1) = fin (rnd (x 1 * y 1)) := m1
  have ht : subF rnd (bhPoint y 0) (bhPoint x 0) = fin (rnd (y 0 - x 0)) := t1
  rw [bhI_form]
  unfold causalityBHFl
  simp only [hm, ht, ax, ay, lt_fin]
  have hsw : bhSwapI rnd metric rS (bhPoint x) (bhPoint y) =
      if test (metric = .schwarzschild ∧ (|x 1| < rS ∨ |y 1| < rS)) then test (|x 1| < |y 1|) else test (rnd (y 0 - x 0) < 0) := by
    unfold bhSwapI
    simp only [ht, ax, ay, lt_fin]
    by_cases h1 : metric = .schwarzschild <;> simp [test, h1]
  rw [hsw]
  generalize (if test (metric = .schwarzschild ∧ (|x 1| < rS ∨ |y 1| < rS)) then test (|x 1| < |y 1|) else test (rnd (y 0 - x 0) < 0)) = sw
  have T : ∀ (rx ry t : ℝ), lightIeee rnd log metric rS (fin rx) = fin (lightFl rnd log metric rS rx) → lightIeee rnd log metric rS (fin ry) = fin (lightFl rnd log metric rS ry) →
      subF rnd (fin (lightFl rnd log metric rS ry)) (fin (lightFl rnd log metric rS rx)) = fin (rnd (lightFl rnd log metric rS ry - lightFl rnd log metric rS rx)) →
      subF rnd (fin rx) (fin ry) = fin (rnd (rx - ry)) →
      bhTestI rnd log metric rS (fin rx) (fin ry) (fin t) =
      if test (ry ≤ rx ∧ rx ≤ rS) then test (rnd (lightFl rnd log metric rS ry - lightFl rnd log metric rS rx) ≥ t ∧
        t ≥ if metric = .schwarzschild then -rnd (lightFl rnd log metric rS ry - lightFl rnd log metric rS rx) else rnd (rx - ry))
      else if test (rS ≤ rx ∧ rx ≥ ry) then test (t ≥ if metric = .schwarzschild then -rnd (lightFl rnd log metric rS ry - lightFl rnd log metric rS rx) else rnd (rx - ry))
      else if test (rS ≤ rx ∧ rx ≤ ry) then test (t ≥ rnd (lightFl rnd log metric rS ry - lightFl rnd log metric rS rx))
      else false := by
    intro rx ry t e1 e2 e3 e4
    unfold bhTestI
    simp only [e1, e2, e3, e4, ge_fin]
    by_cases h1 : metric = .schwarzschild <;> simp [h1, test, NpReal.neg, ge_fin]
  by_cases hp : test (rnd (x 1 * y 1) < 0) = true
  · rw [if_pos hp, if_pos hp]
  rw [if_neg hp, if_neg hp]
  cases sw
  · simp only [Bool.false_eq_true, if_false]
    rw [T _ _ _ lx ly o1 i1]
  · simp only [if_true]
    show (false, bhTestI rnd log metric rS (fin |y 1|) (fin |x 1|) (fin (-rnd (y 0 - x 0)))) = _
    rw [T _ _ _ ly lx o2 i2]

/-! ## the horizon -/

open Classical in
/-- the test if one of the points is on the horizon -/
theorem bhTestI_horizon (hr : IsRounding rnd) (log : ℝ → ℝ) (hl : ∀ z, 0 < z → |log z - Real.log z| ≤ 2 * ulp * (|Real.log z| + 1)) (metric : BHMetric) {rS : ℝ}
    (hS : (2 : ℝ) ^ (-400 : ℤ) ≤ rS) (hm : rS ∈ Binary64) (hS' : rS ≤ 2 ^ 400) {a b : ℝ} (t : ℝ) (ha : |a| ≤ 2 ^ 400) (hb : |b| ≤ 2 ^ 400)
    (hao : a = rS ∨ (2 : ℝ) ^ (-400 : ℤ) ≤ |a - rS|) (hbo : b = rS ∨ (2 : ℝ) ^ (-400 : ℤ) ≤ |b - rS|) (hon : a = rS ∨ b = rS) :
    bhTestI rnd log metric rS (fin a) (fin b) (fin t) = test (b < a ∧ if metric = .schwarzschild then a = rS else t ≥ rnd (a - b)) := by
  have hS0 : 0 < rS := lt_of_lt_of_le (by positivity) hS
  have L : ∀ {r : ℝ}, |r| ≤ 2 ^ 400 → (r = rS ∨ (2 : ℝ) ^ (-400 : ℤ) ≤ |r - rS|) → r ≠ rS → ∃ l, lightIeee rnd log metric rS (fin r) = fin l := by
    intro r h1 h2 h3
    exact ⟨_, (lightIeee_fin hr log hl metric hS hS' h1 (h2.resolve_left h3)).1⟩
  have H := lightIeee_horizon hr log metric hS0 hm hS'
  have i1 : cap (rnd (a - b)) = fin (rnd (a - b)) := (subF_fin hr (by norm_num) ha hb).1
  unfold bhTestI
  by_cases ea : a = rS
  · by_cases eb : b = rS
    · subst ea eb
      simp [H, subF, test, ge_fin]
    · obtain ⟨l, hl⟩ := L hb hbo eb
      subst ea
      simp only [H, hl, ge_fin, subF, i1]
      rcases lt_or_gt_of_ne eb with h | h
      · by_cases hM : metric = .schwarzschild <;> simp [hM, test, h, h.le, NpReal.ge, NpReal.neg]
      · by_cases hM : metric = .schwarzschild <;> simp [hM, test, not_lt.2 h.le, not_le.2 h, h.le, NpReal.ge, NpReal.neg]
  · obtain rfl := hon.resolve_left ea
    obtain ⟨l, hl⟩ := L ha hao ea
    simp only [H, hl, ge_fin, subF, i1]
    rcases lt_or_gt_of_ne ea with h | h
    · simp [test, not_lt.2 h.le, not_le.2 h]
    · by_cases hM : metric = .schwarzschild <;> simp [hM, test, h, h.le, not_le.2 h, NpReal.ge, NpReal.neg, h.ne']

open Classical in
/-- the answer if one of the points is on the horizon -/
theorem bhI_horizon (hr : IsRounding rnd) (log : ℝ → ℝ) (hl : ∀ z, 0 < z → |log z - Real.log z| ≤ 2 * ulp * (|Real.log z| + 1)) (metric : BHMetric) {rS : ℝ}
    (hS : (2 : ℝ) ^ (-400 : ℤ) ≤ rS) (hm : rS ∈ Binary64) (hS' : rS ≤ 2 ^ 400) (x y : Point) (hx : ∀ i < 2, |x i| ≤ 2 ^ 400) (hy : ∀ i < 2, |y i| ≤ 2 ^ 400)
    (hxo : |x 1| = rS ∨ (2 : ℝ) ^ (-400 : ℤ) ≤ abs (|x 1| - rS)) (hyo : |y 1| = rS ∨ (2 : ℝ) ^ (-400 : ℤ) ≤ abs (|y 1| - rS)) (hon : |x 1| = rS ∨ |y 1| = rS) :
    ((causalityBHIeee rnd log metric rS (bhPoint x) (bhPoint y)).1 = true ↔ 0 ≤ rnd (x 1 * y 1) ∧ |y 1| < |x 1| ∧
      if metric = .schwarzschild then |x 1| = rS else rnd (|x 1| - |y 1|) ≤ rnd (y 0 - x 0)) ∧
    ((causalityBHIeee rnd log metric rS (bhPoint x) (bhPoint y)).2 = true ↔ 0 ≤ rnd (x 1 * y 1) ∧ |x 1| < |y 1| ∧
      if metric = .schwarzschild then |y 1| = rS else rnd (|y 1| - |x 1|) ≤ rnd (x 0 - y 0)) := by
  have x0 := hx 0 (by norm_num)
  have x1 := hx 1 (by norm_num)
  have y0 := hy 0 (by norm_num)
  have y1 := hy 1 (by norm_num)
  have ax : NpReal.abs (bhPoint x 1) = fin |x 1| := rfl
  have ay : NpReal.abs (bhPoint y 1) = fin |y 1| := rfl
  have hm' : mulF rnd (bhPoint x 1) (bhPoint y 1) = fin (rnd (x 1 * y 1)) := (mulF_fin hr (by norm_num) x1 y1).1
  have ht : subF rnd (bhPoint y 0) (bhPoint x 0) = fin (rnd (y 0 - x 0)) := (subF_fin hr (by norm_num) y0 x0).1
  have hn : NpReal.neg (fin (rnd (y 0 - x 0))) = fin (rnd (x 0 - y 0)) := by rw [hr.sub_comm (x 0) (y 0)]; rfl
  have T1 := bhTestI_horizon hr log hl metric hS hm hS' (a := |x 1|) (b := |y 1|) (rnd (y 0 - x 0)) (by rwa [abs_abs]) (by rwa [abs_abs]) hxo hyo hon
  have T2 := bhTestI_horizon hr log hl metric hS hm hS' (a := |y 1|) (b := |x 1|) (rnd (x 0 - y 0)) (by rwa [abs_abs]) (by rwa [abs_abs]) hyo hxo hon.symm
  have hsw : bhSwapI rnd metric rS (bhPoint x) (bhPoint y) =
      if test (metric = .schwarzschild ∧ (|x 1| < rS ∨ |y 1| < rS)) then test (|x 1| < |y 1|) else test (rnd (y 0 - x 0) < 0) := by
    unfold bhSwapI
    simp only [ht, ax, ay, lt_fin]
    by_cases h1 : metric = .schwarzschild <;> simp [test, h1]
  rw [bhI_form, hsw]
  simp only [hm', ht, ax, ay, lt_fin, hn, T1, T2]
  by_cases hp : rnd (x 1 * y 1) < 0
  · simp [test, hp]
  have hp' : 0 ≤ rnd (x 1 * y 1) := not_lt.1 hp
  have nn : ∀ {a b s : ℝ}, b < a → rnd (a - b) ≤ s → 0 ≤ s := fun h1 h2 => (hr.nonneg (by linarith)).trans h2
  have hc := hr.sub_comm (x 0) (y 0)
  by_cases hM : metric = .schwarzschild
  · by_cases hin : |x 1| < rS ∨ |y 1| < rS
    · by_cases hlt : |x 1| < |y 1|
      · simp [test, hp, hp', hM, hin, hlt, not_lt.2 hlt.le]
      · simp [test, hp, hp', hM, hin, hlt]
    · push Not at hin
      have h1 : ¬ (|y 1| < |x 1| ∧ |x 1| = rS) := fun h => by linarith [h.1, h.2, hin.2]
      have h2 : ¬ (|x 1| < |y 1| ∧ |y 1| = rS) := fun h => by linarith [h.1, h.2, hin.1]
      simp only [test, hM, if_true, h1, h2, and_false]
      split_ifs <;> simp
  · by_cases hs : rnd (y 0 - x 0) < 0
    · have h1 : ¬ (|y 1| < |x 1| ∧ rnd (|x 1| - |y 1|) ≤ rnd (y 0 - x 0)) := fun h => by linarith [nn h.1 h.2]
      simp [test, hp, hp', hM, hs]
      intro h; by_contra hc; exact h1 ⟨h, not_lt.1 hc⟩
    · have h1 : |x 1| < |y 1| → rnd (|y 1| - |x 1|) ≤ rnd (x 0 - y 0) → False := by
        intro h h'
        have e := nn h h'
        have e2 : rnd (y 0 - x 0) = 0 := by linarith
        have e3 : rnd (|y 1| - |x 1|) ≤ 0 := by linarith
        have e4 : (2 : ℝ) ^ (-400 : ℤ) ≤ |y 1| - |x 1| := by
          rcases hon with h5 | h5
          · have := hyo.resolve_left (by linarith)
            rwa [abs_of_pos (by linarith), ← h5] at this
          · have := hxo.resolve_left (by linarith)
            rwa [abs_of_neg (by linarith), neg_sub, ← h5] at this
        have e5 := hr.mono e4
        rw [hr.fix (⟨1, -400, by norm_num, by norm_num, by simp⟩ : (2 : ℝ) ^ (-400 : ℤ) ∈ Binary64)] at e5
        have : (0 : ℝ) < 2 ^ (-400 : ℤ) := by positivity
        linarith
      simp only [test, hM, hs, hp', if_false, true_and, false_and, decide_false, Bool.false_eq_true, false_iff]
      simp only [hp, decide_false, Bool.false_eq_true, if_false, false_iff]
      refine ⟨by simp, fun h => h1 h.1 h.2⟩

/-- **C116, the horizon in Eddington–Finkelstein coordinates.** Points exactly on the horizon in floating point arithmetic (the other point on the horizon or at least `2^-400` off it): every causal
relation of a point on the horizon with a point off it is found, whatever the rounding errors; a point found to precede another one is on the same side (absUp to underflow of the product of the
radii), farther out, not later, and light can reach the second point up to the rounding errors of the two differences; two points on the horizon are never related. -/
theorem C116_BH_horizon_EF (hr : IsRounding rnd) (log : ℝ → ℝ) (hl : ∀ z, 0 < z → |log z - Real.log z| ≤ 2 * ulp * (|Real.log z| + 1)) {rS : ℝ}
    (hS : (2 : ℝ) ^ (-400 : ℤ) ≤ rS) (hm : rS ∈ Binary64) (hS' : rS ≤ 2 ^ 400) (x y : Point) (hx : ∀ i < 2, x i ∈ Binary64 ∧ |x i| ≤ 2 ^ 400) (hy : ∀ i < 2, y i ∈ Binary64 ∧ |y i| ≤ 2 ^ 400)
    (hxo : |x 1| = rS ∨ (2 : ℝ) ^ (-400 : ℤ) ≤ abs (|x 1| - rS)) (hyo : |y 1| = rS ∨ (2 : ℝ) ^ (-400 : ℤ) ≤ abs (|y 1| - rS)) (hon : |x 1| = rS ∨ |y 1| = rS) :
    let c := causalityBHIeee rnd log .eddingtonFinkelstein rS (bhPoint x) (bhPoint y)
    (EFCausal rS x y → ¬ (|x 1| = rS ∧ |y 1| = rS) → c.1 = true) ∧
    (c.1 = true → -(2 : ℝ) ^ (-1075 : ℤ) ≤ x 1 * y 1 ∧ |y 1| < |x 1| ∧ x 0 ≤ y 0 ∧ |x 1| - |y 1| ≤ y 0 - x 0 + (|x 1| + |y 1| + |x 0| + |y 0| + 2) / 2 ^ 53) ∧
    (|x 1| = rS → |y 1| = rS → c = (false, false)) := by
  intro c
  obtain ⟨f1, f2⟩ := bhI_horizon hr log hl .eddingtonFinkelstein hS hm hS' x y (fun i hi => (hx i hi).2) (fun i hi => (hy i hi).2) hxo hyo hon
  simp only [reduceCtorEq, if_false] at f1 f2
  refine ⟨fun h hb => ?_, fun h => ?_, fun h1 h2 => ?_⟩
  · obtain ⟨⟨h1, h2, h3, h4⟩, h5⟩ := h
    refine f1.2 ⟨hr.nonneg h1, ?_, hr.mono h2⟩
    rcases lt_trichotomy (|x 1|) rS with h | h | h
    · have h6 := (h3 h).1
      have h7 : |y 1| = rS := hon.resolve_left h.ne
      linarith
    · have h6 := h5 h
      exact lt_of_le_of_ne (by rw [h]; exact h6) fun e => hb ⟨h, by rw [e, h]⟩
    · rw [hon.resolve_left h.ne']; exact h
  · obtain ⟨g1, g2, g3⟩ := f1.1 h
    refine ⟨?_, g2, ?_, ?_⟩
    · by_contra hc
      push Not at hc
      have hneg : rnd (x 1 * y 1) < 0 := bh_sides_neg hr hc
      linarith
    · refine (hr.sub_nonneg_iff (hx 0 (by norm_num)).1 (hy 0 (by norm_num)).1).1 ((hr.nonneg ?_).trans g3)
      linarith
    · have e1 := abs_le.1 (hr.err' (|x 1| - |y 1|))
      have e2 := abs_le.1 (hr.err' (y 0 - x 0))
      have e3 := abs_sub (|x 1|) (|y 1|)
      have e4 := abs_sub (y 0) (x 0)
      rw [abs_abs, abs_abs] at e3
      have hu := ulp_pos
      have e5 := mul_le_mul_of_nonneg_left e3 hu.le
      have e6 := mul_le_mul_of_nonneg_left e4 hu.le
      have : (|x 1| + |y 1| + |x 0| + |y 0| + 2) / 2 ^ 53 = (|x 1| + |y 1| + |x 0| + |y 0| + 2) * ulp := by unfold ulp; ring
      rw [this]
      linarith [e1.1, e2.2]
  · refine Prod.ext (Bool.eq_false_iff.2 fun h => ?_) (Bool.eq_false_iff.2 fun h => ?_)
    · have := (f1.1 h).2.1; rw [h1, h2] at this; exact lt_irrefl _ this
    · have := (f2.1 h).2.1; rw [h1, h2] at this; exact lt_irrefl _ this

/-- **C116, the horizon in Schwarzschild coordinates.** A point on the horizon precedes exactly the points inside (on its side), at all times, and follows none. -/
theorem C116_BH_horizon_Schwarzschild (hr : IsRounding rnd) (log : ℝ → ℝ) (hl : ∀ z, 0 < z → |log z - Real.log z| ≤ 2 * ulp * (|Real.log z| + 1)) {rS : ℝ}
    (hS : (2 : ℝ) ^ (-400 : ℤ) ≤ rS) (hm : rS ∈ Binary64) (hS' : rS ≤ 2 ^ 400) (x y : Point) (hx : ∀ i < 2, |x i| ≤ 2 ^ 400) (hy : ∀ i < 2, |y i| ≤ 2 ^ 400)
    (hxo : |x 1| = rS) (hyo : |y 1| = rS ∨ (2 : ℝ) ^ (-400 : ℤ) ≤ abs (|y 1| - rS)) (hside : 0 ≤ x 1 * y 1) :
    causalityBHIeee rnd log .schwarzschild rS (bhPoint x) (bhPoint y) = (test (|y 1| < rS), false) ∧
    causalityBHIeee rnd log .schwarzschild rS (bhPoint y) (bhPoint x) = (false, test (|y 1| < rS)) := by
  obtain ⟨f1, f2⟩ := bhI_horizon hr log hl .schwarzschild hS hm hS' x y hx hy (.inl hxo) hyo (.inl hxo)
  obtain ⟨g1, g2⟩ := bhI_horizon hr log hl .schwarzschild hS hm hS' y x hy hx hyo (.inl hxo) (.inr hxo)
  simp only [if_true, hxo, hr.nonneg hside, true_and, and_true, show y 1 * x 1 = x 1 * y 1 from mul_comm _ _] at f1 f2 g1 g2
  refine ⟨Prod.ext (Bool.eq_iff_iff.2 ?_) (Bool.eq_false_iff.2 fun h => ?_), Prod.ext (Bool.eq_false_iff.2 fun h => ?_) (Bool.eq_iff_iff.2 ?_)⟩
  · rw [f1]; simp [test]
  · have := f2.1 h; linarith [this.1, this.2]
  · have := g1.1 h; linarith [this.1, this.2]
  · rw [g2]; simp [test]

/-! ## examples -/

theorem rnd64_log (z : ℝ) (_ : 0 < z) : |rnd64 (Real.log z) - Real.log z| ≤ 2 * ulp * (|Real.log z| + 1) := by
  have := C104_ieee.err' (Real.log z)
  have h := mul_nonneg ulp_pos.le (by positivity : 0 ≤ |Real.log z| + 1)
  linarith

theorem lineP_small {t r : ℝ} (ht : |t| ≤ 8) (hr : |r| ≤ 8) (i : ℕ) : |lineP t r i| ≤ 2 ^ 400 := by
  have : |lineP t r i| ≤ 2 ^ 3 := by
    unfold lineP
    split_ifs
    · exact ht.trans (by norm_num)
    · exact hr.trans (by norm_num)
    · rw [abs_zero]; positivity
  exact this.trans (pow_le_pow_right₀ (by norm_num) (by norm_num))

theorem tiny_le_one : (2 : ℝ) ^ (-400 : ℤ) ≤ 1 := by
  rw [zpow_neg]; exact inv_le_one_of_one_le₀ (one_le_zpow₀ (by norm_num) (by norm_num))

/-- from the radius 2 to the horizon at 1 in a time of 1, with the rounding of IEEE 754 and the correctly rounded logarithm -/
example : (causalityBHIeee rnd64 (fun z => rnd64 (Real.log z)) .eddingtonFinkelstein 1 (bhPoint (lineP 0 2)) (bhPoint (lineP 1 1))).1 = true := by
  have hm : ∀ n : ℤ, |n| ≤ 2 ^ 53 → (n : ℝ) ∈ Binary64 := fun n hn => int_mem_binary64 hn
  have m0 : (0 : ℝ) ∈ Binary64 := by exact_mod_cast hm 0 (by norm_num)
  have m1 : (1 : ℝ) ∈ Binary64 := by exact_mod_cast hm 1 (by norm_num)
  have m2 : (2 : ℝ) ∈ Binary64 := by exact_mod_cast hm 2 (by norm_num)
  refine (C116_BH_horizon_EF C104_ieee (fun z => rnd64 (Real.log z)) rnd64_log tiny_le_one m1 (one_le_pow₀ (by norm_num)) (lineP 0 2) (lineP 1 1)
    (fun i _ => ⟨?_, lineP_small (by norm_num) (by norm_num) i⟩) (fun i _ => ⟨?_, lineP_small (by norm_num) (by norm_num) i⟩) (.inr ?_) (.inl (by simp [lineP])) (.inr (by simp [lineP]))).1 ?_ ?_
  · unfold lineP; split_ifs
    · exact m0
    · exact m2
    · exact m0
  · unfold lineP; split_ifs
    · exact m1
    · exact m1
    · exact m0
  · have : _root_.abs (|lineP 0 2 1| - (1 : ℝ)) = 1 := by norm_num [lineP]
    rw [this]; exact tiny_le_one
  · refine ⟨⟨by norm_num [lineP], by norm_num [lineP], fun h => ?_, fun _ h => ?_⟩, fun h => ?_⟩
    all_goals norm_num [lineP] at h
  · norm_num [lineP]

/-- in Schwarzschild coordinates a point on the horizon precedes the point at half the radius, at all times -/
example (t : ℝ) (ht : |t| ≤ 8) : causalityBHIeee rnd64 (fun z => rnd64 (Real.log z)) .schwarzschild 1 (bhPoint (lineP t 1)) (bhPoint (lineP 0 (1 / 2))) = (true, false) := by
  have m1 : (1 : ℝ) ∈ Binary64 := by exact_mod_cast int_mem_binary64 (n := 1) (by norm_num)
  rw [(C116_BH_horizon_Schwarzschild C104_ieee (fun z => rnd64 (Real.log z)) rnd64_log tiny_le_one m1 (one_le_pow₀ (by norm_num)) (lineP t 1) (lineP 0 (1 / 2))
    (fun i _ => lineP_small ht (by norm_num) i) (fun i _ => lineP_small (by norm_num) (by norm_num) i) (by simp [lineP]) (.inr ?_) (by norm_num [lineP])).1]
  · simp [test, lineP]
    norm_num [abs_of_pos]
  · have : _root_.abs (|lineP 0 (1 / 2) 1| - (1 : ℝ)) = 2 ^ (-1 : ℤ) := by norm_num [lineP, abs_of_pos, abs_of_neg]
    rw [this]; exact zpow_le_zpow_right₀ (by norm_num) (by norm_num)

/-- two points off the horizon -/
example : causalityBHIeee rnd64 (fun z => rnd64 (Real.log z)) .eddingtonFinkelstein 1 (bhPoint (lineP 0 2)) (bhPoint (lineP 8 3)) =
    causalityBHFl rnd64 (fun z => rnd64 (Real.log z)) .eddingtonFinkelstein 1 (lineP 0 2) (lineP 8 3) := by
  refine C116_BH_agree C104_ieee _ rnd64_log _ tiny_le_one (one_le_pow₀ (by norm_num)) _ _ (fun i _ => lineP_small (by norm_num) (by norm_num) i)
    (fun i _ => lineP_small (by norm_num) (by norm_num) i) ?_ ?_
  · have : _root_.abs (|lineP 0 2 1| - (1 : ℝ)) = 1 := by norm_num [lineP]
    rw [this]; exact tiny_le_one
  · have : _root_.abs (|lineP 8 3 1| - (1 : ℝ)) = 2 := by norm_num [lineP]
    rw [this]; exact tiny_le_one.trans (by norm_num)

end Causets
