import Verif.Props.Float32
import Verif.Props.FloatExact
import Verif.Props.Sprinkle

/-! # C115 — sprinkles in single precision: the region and the order -/

namespace Causets

variable {rnd rndS : ℝ → ℝ}

/-! ## coordinates -/

/-- the length of the edge of a cube or cuboid along coordinate `j` -/
noncomputable def CoordinateShape.edgeAt (S : CoordinateShape) (j : ℕ) : ℝ := if S.name = "cuboid" then (S.edges.getD []).getD j 0 else S.edge.getD 0

/-- **C115, the region.** A coordinate of a sprinkle in a cube or cuboid, if `rng.uniform(low, high)` is between its arguments, is a `float32` number between the rounded limits
of the box; it is inside of the box itself if the limits of the box are `float32` numbers, and in any case outside by at most a relative error of `2^-24` of the limit (half a unit in the
last place). -/
theorem C115_box (hr : IsRoundingTo Binary32 rnd) (draw : ℕ → ℕ → ℝ → ℝ → ℝ) (hdraw : ∀ i j low high, low ≤ high → low ≤ draw i j low high ∧ draw i j low high ≤ high)
    (S : CoordinateShape) (i j : ℕ) (hj : j < S.dim) (he : 0 ≤ S.edgeAt j) :
    let lo := S.center.getD j 0 - S.edgeAt j / 2
    let hi := S.center.getD j 0 + S.edgeAt j / 2
    let z := sprinkleCuboid32 rnd draw S.dim S i j
    z ∈ Binary32 ∧ rnd lo ≤ z ∧ z ≤ rnd hi ∧ (lo ∈ Binary32 → lo ≤ z) ∧ (hi ∈ Binary32 → z ≤ hi) ∧
      lo - (|lo| / 2 ^ 24 + 2 ^ (-150 : ℤ)) ≤ z ∧ z ≤ hi + (|hi| / 2 ^ 24 + 2 ^ (-150 : ℤ)) := by
  intro lo hi z
  have hz : z = rnd (draw i j (rnd lo) (rnd hi)) := by
    simp only [z, sprinkleCuboid32, if_pos hj]; rfl
  have hle : rnd lo ≤ rnd hi := hr.mono (by simp only [lo, hi]; linarith)
  obtain ⟨d1, d2⟩ := hdraw i j _ _ hle
  have h1 : rnd lo ≤ z := by
    rw [hz]
    calc rnd lo = rnd (rnd lo) := (hr.fix (hr.mem _)).symm
      _ ≤ _ := hr.mono d1
  have h2 : z ≤ rnd hi := by
    rw [hz]
    calc _ ≤ rnd (rnd hi) := hr.mono d2
      _ = rnd hi := hr.fix (hr.mem _)
  have e1 := abs_le.1 (floatNum_err (by norm_num) hr lo)
  have e2 := abs_le.1 (floatNum_err (by norm_num) hr hi)
  have z24 : (2 : ℝ) ^ (-((24 : ℕ) : ℤ)) = 1 / 2 ^ 24 := by rw [zpow_neg, one_div]; norm_cast
  rw [z24, show (-149 : ℤ) - 1 = -150 by norm_num] at e1 e2
  refine ⟨by rw [hz]; exact hr.mem _, h1, h2, fun h => by rwa [hr.fix h] at h1, fun h => by rwa [hr.fix h] at h2, ?_, ?_⟩
  · have := e1.1
    have e : |lo| / 2 ^ 24 = 1 / 2 ^ 24 * |lo| := by ring
    rw [e]; linarith
  · have := e2.2
    have e : |hi| / 2 ^ 24 = 1 / 2 ^ 24 * |hi| := by ring
    rw [e]; linarith

/-- numbers `m / 2^k` with at most 24 bits are `float32` numbers -/
theorem div_mem_binary32 (k : ℕ) (hk : k ≤ 149) {m : ℤ} (hm : |m| ≤ 2 ^ 24) : (m : ℝ) / 2 ^ k ∈ Binary32 := by
  have := mem_floatNum_of_le (p := 24) (emin := -149) (by norm_num) (n := m) (e := -(k : ℤ)) (by omega) hm
  rw [zpow_neg, zpow_natCast] at this
  rwa [div_eq_mul_inv]

/-- **C115 (the claim "in the shape" is false for other limits).** There is a 1-dimensional cube with `float32` centre and edge, such that some values of `rng.uniform` (below the limit
it was called with, for every rounding to nearest) give a sprinkled event outside of the cube. -/
theorem C115_box_refuted (hr : IsRoundingTo Binary32 rnd) : ∃ S : CoordinateShape, S.WellFormed ∧ S.name = "cube" ∧ (∀ c ∈ S.center, c ∈ Binary32) ∧
    (∀ e ∈ S.edge, e ∈ Binary32) ∧ ∃ draw : ℕ → ℕ → ℝ → ℝ → ℝ, (∀ i j low high, low ≤ high → low ≤ draw i j low high ∧ draw i j low high ≤ high) ∧
      draw 0 0 (rnd (S.center.getD 0 0 - S.edgeAt 0 / 2)) (rnd (S.center.getD 0 0 + S.edgeAt 0 / 2)) < rnd (S.center.getD 0 0 + S.edgeAt 0 / 2) ∧
      sprinkleCuboid32 rnd draw S.dim S 0 ∉ S.region := by
  have hc : (1 / 4 + 3 / 2 ^ 25 : ℝ) ∈ Binary32 := by
    have := div_mem_binary32 25 (by norm_num) (m := 8388611) (by norm_num)
    have e : (1 / 4 + 3 / 2 ^ 25 : ℝ) = ((8388611 : ℤ) : ℝ) / 2 ^ 25 := by norm_num
    rw [e]; exact this
  have hE : (3 / 2 : ℝ) ∈ Binary32 := by
    have := div_mem_binary32 1 (by norm_num) (m := 3) (by norm_num)
    have e : (3 / 2 : ℝ) = ((3 : ℤ) : ℝ) / 2 ^ 1 := by norm_num
    rw [e]; exact this
  have z23 : (2 : ℝ) ^ (-23 : ℤ) = 1 / 2 ^ 23 := by rw [zpow_neg, one_div]; norm_cast
  have hhi : rnd (1 / 4 + 3 / 2 ^ 25 + 3 / 2 / 2) = 1 + 1 / 2 ^ 23 := by
    have := floatNum_eq_of_near (by norm_num) hr (n := 8388609) (e := -23) (z := 1 / 4 + 3 / 2 ^ 25 + 3 / 2 / 2) (by norm_num) (by norm_num) (by norm_num)
      (by rw [z23, abs_lt]; norm_num)
    rw [this, z23]; norm_num
  have hmid : rnd (1 + 7 / 2 ^ 26) = 1 + 1 / 2 ^ 23 := by
    have := floatNum_eq_of_near (by norm_num) hr (n := 8388609) (e := -23) (z := 1 + 7 / 2 ^ 26) (by norm_num) (by norm_num) (by norm_num)
      (by rw [z23, abs_lt]; norm_num)
    rw [this, z23]; norm_num
  have hlo : rnd (1 / 4 + 3 / 2 ^ 25 - 3 / 2 / 2) ≤ 0 := by
    have := hr.mono (show (1 / 4 + 3 / 2 ^ 25 - 3 / 2 / 2 : ℝ) ≤ 0 by norm_num)
    rwa [hr.zero] at this
  let S : CoordinateShape := { dim := 1, name := "cube", center := [1 / 4 + 3 / 2 ^ 25], edge := some (3 / 2) }
  let draw : ℕ → ℕ → ℝ → ℝ → ℝ := fun _ _ low high => if low ≤ 1 + 7 / 2 ^ 26 ∧ 1 + 7 / 2 ^ 26 ≤ high then 1 + 7 / 2 ^ 26 else low
  have hedge : S.edgeAt 0 = 3 / 2 := by simp [S, CoordinateShape.edgeAt]
  have hcen : S.center.getD 0 0 = 1 / 4 + 3 / 2 ^ 25 := rfl
  have hdraw : draw 0 0 (rnd (1 / 4 + 3 / 2 ^ 25 - 3 / 2 / 2)) (rnd (1 / 4 + 3 / 2 ^ 25 + 3 / 2 / 2)) = 1 + 7 / 2 ^ 26 := by
    simp only [draw]
    rw [if_pos]
    rw [hhi]
    exact ⟨le_trans hlo (by norm_num), by norm_num⟩
  refine ⟨S, ?_, rfl, ?_, ?_, draw, ?_, ?_, ?_⟩
  · refine ⟨by norm_num [S], rfl, ?_⟩
    simp [S]
  · intro c h
    simp only [S, List.mem_singleton] at h
    rw [h]; exact hc
  · intro e h
    simp only [S, Option.mem_def, Option.some.injEq] at h
    rw [← h]; exact hE
  · intro i j low high h
    simp only [draw]
    split
    · assumption
    · exact ⟨le_rfl, h⟩
  · rw [hedge, hcen, hdraw, hhi]; norm_num
  · intro h
    have hz : sprinkleCuboid32 rnd draw S.dim S 0 0 = 1 + 1 / 2 ^ 23 := by
      have : sprinkleCuboid32 rnd draw S.dim S 0 0 = rnd (draw 0 0 (rnd (S.center.getD 0 0 - S.edgeAt 0 / 2)) (rnd (S.center.getD 0 0 + S.edgeAt 0 / 2))) := by
        simp only [sprinkleCuboid32, S]; rfl
      rw [this, hedge, hcen, hdraw, hmid]
    have h0 : |sprinkleCuboid32 rnd draw S.dim S 0 0 - S.centerPoint 0| ≤ 3 / 2 / 2 := by
      have := h
      simp only [CoordinateShape.region, S, cuboidRegion] at this
      simpa [S] using this 0 (by norm_num)
    rw [hz] at h0
    have : S.centerPoint 0 = 1 / 4 + 3 / 2 ^ 25 := rfl
    rw [this] at h0
    have := (abs_le.1 h0).2
    norm_num at this

/-! ## the order -/

/-- the causality function for differences on a grid of `2^-22` -/
theorem causality_grid {G : Set ℝ} (hr : IsRoundingTo Binary32 rnd) (hS : IsRoundingTo G rndS) (hG : Binary32 ⊆ G) (eps : ℝ) (x y : Point) (t a b : ℤ)
    (ht : |t| ≤ 2 ^ 24) (ha : |a| ≤ 2 ^ 24) (hb : |b| ≤ 2 ^ 24) (h0 : y 0 - x 0 = t / 2 ^ 22) (h1 : y 1 - x 1 = a / 2 ^ 22) (h2 : y 2 - x 2 = b / 2 ^ 22) :
    let J := test (rnd (((t : ℝ) / 2 ^ 22) ^ 2) ≥ rndS (rndS (rnd (((a : ℝ) / 2 ^ 22) ^ 2) + rnd (((b : ℝ) / 2 ^ 22) ^ 2)) - eps))
    causalityMinkMix rnd rndS eps 3 x y = (test ((t : ℝ) / 2 ^ 22 ≥ 0) && J, test ((t : ℝ) / 2 ^ 22 < 0) && J) := by
  intro J
  have r : List.range' 1 (3 - 1) = [1, 2] := rfl
  have f0 : rnd ((t : ℝ) / 2 ^ 22) = t / 2 ^ 22 := hr.fix (div_mem_binary32 22 (by norm_num) ht)
  have f1 : rnd ((a : ℝ) / 2 ^ 22) = a / 2 ^ 22 := hr.fix (div_mem_binary32 22 (by norm_num) ha)
  have f2 : rnd ((b : ℝ) / 2 ^ 22) = b / 2 ^ 22 := hr.fix (div_mem_binary32 22 (by norm_num) hb)
  unfold causalityMinkMix
  rw [if_neg (by norm_num), if_neg (by norm_num)]
  unfold causalityFlatMix
  rw [r]
  have e0 : ∀ p q : ℝ, flSum rndS [p, q] = rndS (rndS (0 + p) + q) := fun p q => rfl
  simp only [List.map_cons, List.map_nil, h0, h1, h2, f0, f1, f2, e0, zero_add]
  rw [hS.fix (hG (hr.mem (((a : ℝ) / 2 ^ 22) ^ 2)))]

/-- three points in the unit cube -/
noncomputable def pA : Point := point3 (-1286000 / 2 ^ 22) (-1252000 / 2 ^ 22) (-292000 / 2 ^ 22)
@[inherit_doc pA] noncomputable def pB : Point := point3 (319213 / 2 ^ 22) (311174 / 2 ^ 22) (72960 / 2 ^ 22)
@[inherit_doc pA] noncomputable def pC : Point := point3 (1286457 / 2 ^ 22) (1253087 / 2 ^ 22) (292871 / 2 ^ 22)

/-- the answers for the three points -/
theorem points_answers (hr : IsRoundingTo Binary32 rnd) (hS : IsRoundingTo Binary32 rndS ∨ IsRoundingTo Binary64 rndS) (eps : ℝ) (he0 : 0 ≤ eps) (he : eps ≤ 2 / 10 ^ 12) :
    let c := causalityMinkMix rnd rndS eps 3
    c pA pB = (true, false) ∧ c pB pC = (true, false) ∧ c pA pC = (false, false) ∧ c pB pA = (false, true) ∧ c pC pB = (false, true) ∧ c pC pA = (false, false) := by
  intro c
  have zp : ∀ k : ℕ, (2 : ℝ) ^ (-(k : ℤ)) = 1 / 2 ^ k := fun k => by rw [zpow_neg, one_div]; norm_cast
  have z25 : (2 : ℝ) ^ (-25 : ℤ) = 1 / 2 ^ 25 := zp 25
  have z26 : (2 : ℝ) ^ (-26 : ℤ) = 1 / 2 ^ 26 := zp 26
  have z28 : (2 : ℝ) ^ (-28 : ℤ) = 1 / 2 ^ 28 := zp 28
  have z29 : (2 : ℝ) ^ (-29 : ℤ) = 1 / 2 ^ 29 := zp 29
  have z31 : (2 : ℝ) ^ (-31 : ℤ) = 1 / 2 ^ 31 := zp 31
  have z32 : (2 : ℝ) ^ (-32 : ℤ) = 1 / 2 ^ 32 := zp 32
  have near : ∀ (z : ℝ) (n e : ℤ), -149 ≤ e → 2 ^ 23 < n → n < 2 ^ 24 → |z - n * 2 ^ e| < 2 ^ e / 2 → rnd z = n * 2 ^ e := fun z n e h1 h2 h3 h4 =>
    floatNum_eq_of_near (by norm_num) hr h1 h2 h3 h4
  -- the rounded squares
  have q1 : rnd (((1605213 : ℤ) : ℝ) / 2 ^ 22) = ((1605213 : ℤ) : ℝ) / 2 ^ 22 := hr.fix (div_mem_binary32 22 (by norm_num) (by norm_num))
  have t1 : rnd ((((1605213 : ℤ) : ℝ) / 2 ^ 22) ^ 2) = 9829364 / 2 ^ 26 := by
    rw [near _ 9829364 (-26) (by norm_num) (by norm_num) (by norm_num) (by rw [z26, abs_lt]; norm_num), z26]; norm_num
  have a1 : rnd ((((1563174 : ℤ) : ℝ) / 2 ^ 22) ^ 2) = 9321262 / 2 ^ 26 := by
    rw [near _ 9321262 (-26) (by norm_num) (by norm_num) (by norm_num) (by rw [z26, abs_lt]; norm_num), z26]; norm_num
  have b1 : rnd ((((364960 : ℤ) : ℝ) / 2 ^ 22) ^ 2) = 16259253 / 2 ^ 31 := by
    rw [near _ 16259253 (-31) (by norm_num) (by norm_num) (by norm_num) (by rw [z31, abs_lt]; norm_num), z31]; norm_num
  have t2 : rnd ((((967244 : ℤ) : ℝ) / 2 ^ 22) ^ 2) = 14275527 / 2 ^ 28 := by
    rw [near _ 14275527 (-28) (by norm_num) (by norm_num) (by norm_num) (by rw [z28, abs_lt]; norm_num), z28]; norm_num
  have a2 : rnd ((((941913 : ℤ) : ℝ) / 2 ^ 22) ^ 2) = 13537599 / 2 ^ 28 := by
    rw [near _ 13537599 (-28) (by norm_num) (by norm_num) (by norm_num) (by rw [z28, abs_lt]; norm_num), z28]; norm_num
  have b2 : rnd ((((219911 : ℤ) : ℝ) / 2 ^ 22) ^ 2) = 11806848 / 2 ^ 32 := by
    rw [near _ 11806848 (-32) (by norm_num) (by norm_num) (by norm_num) (by rw [z32, abs_lt]; norm_num), z32]; norm_num
  have t3 : rnd ((((2572457 : ℤ) : ℝ) / 2 ^ 22) ^ 2) = 12621946 / 2 ^ 25 := by
    rw [near _ 12621946 (-25) (by norm_num) (by norm_num) (by norm_num) (by rw [z25, abs_lt]; norm_num), z25]; norm_num
  have a3 : rnd ((((2505087 : ℤ) : ℝ) / 2 ^ 22) ^ 2) = 11969492 / 2 ^ 25 := by
    rw [near _ 11969492 (-25) (by norm_num) (by norm_num) (by norm_num) (by rw [z25, abs_lt]; norm_num), z25]; norm_num
  have b3 : rnd ((((584871 : ℤ) : ℝ) / 2 ^ 22) ^ 2) = 10439273 / 2 ^ 29 := by
    rw [near _ 10439273 (-29) (by norm_num) (by norm_num) (by norm_num) (by rw [z29, abs_lt]; norm_num), z29]; norm_num
  -- the two formats of the sum
  obtain ⟨G, hSG, hG, hrej⟩ : ∃ G, IsRoundingTo G rndS ∧ Binary32 ⊆ G ∧ (12621946 / 2 ^ 25 : ℝ) < rndS (rndS (11969492 / 2 ^ 25 + 10439273 / 2 ^ 29) - eps) := by
    rcases hS with hS | hS
    · refine ⟨_, hS, subset_rfl, ?_⟩
      have k1 : rndS (11969492 / 2 ^ 25 + 10439273 / 2 ^ 29) = ((12621947 : ℤ) : ℝ) * 2 ^ (-25 : ℤ) :=
        floatNum_eq_of_near (by norm_num) hS (by norm_num) (by norm_num) (by norm_num) (by rw [z25, abs_lt]; norm_num)
      have k2 : rndS (((12621947 : ℤ) : ℝ) * 2 ^ (-25 : ℤ) - eps) = ((12621947 : ℤ) : ℝ) * 2 ^ (-25 : ℤ) :=
        floatNum_eq_of_near (by norm_num) hS (by norm_num) (by norm_num) (by norm_num) (by
          rw [z25, abs_lt]
          have : (2 : ℝ) / 10 ^ 12 < 1 / 2 ^ 25 / 2 := by norm_num
          constructor <;> linarith)
      rw [k1, k2, z25]; norm_num
    · refine ⟨_, hS, C115_ieee.2.2.1, ?_⟩
      have m1 : ∀ n : ℤ, |n| < 2 ^ 53 → (n : ℝ) / 2 ^ 40 ∈ Binary64 := fun n hn => ⟨n, -40, hn, by norm_num, by rw [show (2 : ℝ) ^ (-40 : ℤ) = 1 / 2 ^ 40 from zp 40]; ring⟩
      have k1 : rndS (11969492 / 2 ^ 25 + 10439273 / 2 ^ 29) = 11969492 / 2 ^ 25 + 10439273 / 2 ^ 29 := by
        refine hS.fix ?_
        have := m1 (11969492 * 2 ^ 15 + 10439273 * 2 ^ 11) (by norm_num)
        have e : (11969492 / 2 ^ 25 + 10439273 / 2 ^ 29 : ℝ) = ((11969492 * 2 ^ 15 + 10439273 * 2 ^ 11 : ℤ) : ℝ) / 2 ^ 40 := by norm_num
        rw [e]; exact this
      rw [k1]
      have k2 := m1 (11969492 * 2 ^ 15 + 10439273 * 2 ^ 11 - 1024) (by norm_num)
      have k3 : ((11969492 * 2 ^ 15 + 10439273 * 2 ^ 11 - 1024 : ℤ) : ℝ) / 2 ^ 40 ≤ 11969492 / 2 ^ 25 + 10439273 / 2 ^ 29 - eps := by
        have : (2 : ℝ) / 10 ^ 12 ≤ 1024 / 2 ^ 40 := by norm_num
        push_cast
        have e : (413595943936 : ℝ) / 2 ^ 40 = 11969492 / 2 ^ 25 + 10439273 / 2 ^ 29 - 1024 / 2 ^ 40 := by norm_num
        rw [e]; linarith
      have k4 := hS.mono k3
      rw [hS.fix k2] at k4
      refine lt_of_lt_of_le ?_ k4
      norm_num
  have acc : ∀ S T : ℝ, T ∈ Binary32 → S ≤ T → rndS (rndS S - eps) ≤ T := by
    intro S T hT h
    have k1 : rndS S ≤ T := by rw [← hSG.fix (hG hT)]; exact hSG.mono h
    calc rndS (rndS S - eps) ≤ rndS T := hSG.mono (by linarith)
      _ = T := hSG.fix (hG hT)
  have J1 : test (rnd ((((1605213 : ℤ) : ℝ) / 2 ^ 22) ^ 2) ≥ rndS (rndS (rnd ((((1563174 : ℤ) : ℝ) / 2 ^ 22) ^ 2) + rnd ((((364960 : ℤ) : ℝ) / 2 ^ 22) ^ 2)) - eps)) = true := by
    simp only [test, decide_eq_true_eq, ge_iff_le]
    refine acc _ _ (hr.mem _) ?_
    rw [t1, a1, b1]; norm_num
  have J2 : test (rnd ((((967244 : ℤ) : ℝ) / 2 ^ 22) ^ 2) ≥ rndS (rndS (rnd ((((941913 : ℤ) : ℝ) / 2 ^ 22) ^ 2) + rnd ((((219911 : ℤ) : ℝ) / 2 ^ 22) ^ 2)) - eps)) = true := by
    simp only [test, decide_eq_true_eq, ge_iff_le]
    refine acc _ _ (hr.mem _) ?_
    rw [t2, a2, b2]; norm_num
  have J3 : test (rnd ((((2572457 : ℤ) : ℝ) / 2 ^ 22) ^ 2) ≥ rndS (rndS (rnd ((((2505087 : ℤ) : ℝ) / 2 ^ 22) ^ 2) + rnd ((((584871 : ℤ) : ℝ) / 2 ^ 22) ^ 2)) - eps)) = false := by
    simp only [test, decide_eq_false_iff_not, ge_iff_le]
    rw [t3, a3, b3]
    exact not_le.2 hrej
  have mem : ∀ x ∈ [pA, pB, pC], x 0 ∈ Binary32 := by
    intro x hx
    simp only [List.mem_cons, List.not_mem_nil, or_false] at hx
    rcases hx with rfl | rfl | rfl
    · have := div_mem_binary32 22 (by norm_num) (m := -1286000) (by norm_num)
      simpa [pA, point3] using this
    · have := div_mem_binary32 22 (by norm_num) (m := 319213) (by norm_num)
      simpa [pB, point3] using this
    · have := div_mem_binary32 22 (by norm_num) (m := 1286457) (by norm_num)
      simpa [pC, point3] using this
  have c1 : c pA pB = (true, false) := by
    simp only [c]
    rw [causality_grid hr hSG hG eps pA pB 1605213 1563174 364960 (by norm_num) (by norm_num) (by norm_num) (by simp only [pA, pB, point3]; norm_num)
      (by simp only [pA, pB, point3]; norm_num) (by simp only [pA, pB, point3]; norm_num), J1]
    simp [test]
    norm_num
  have c2 : c pB pC = (true, false) := by
    simp only [c]
    rw [causality_grid hr hSG hG eps pB pC 967244 941913 219911 (by norm_num) (by norm_num) (by norm_num) (by simp only [pC, pB, point3]; norm_num)
      (by simp only [pC, pB, point3]; norm_num) (by simp only [pC, pB, point3]; norm_num), J2]
    simp [test]
    norm_num
  have c3 : c pA pC = (false, false) := by
    simp only [c]
    rw [causality_grid hr hSG hG eps pA pC 2572457 2505087 584871 (by norm_num) (by norm_num) (by norm_num) (by simp only [pA, pC, point3]; norm_num)
      (by simp only [pA, pC, point3]; norm_num) (by simp only [pA, pC, point3]; norm_num), J3]
    simp
  have sw : ∀ x ∈ [pA, pB, pC], ∀ y ∈ [pA, pB, pC], x 0 ≠ y 0 → c y x = ((c x y).2, (c x y).1) := fun x hx y hy hne =>
    (C115_directions (by norm_num) hr rndS eps 3 x y (mem x hx) (mem y hy)).2.2.2.2 hne
  refine ⟨c1, c2, c3, ?_, ?_, ?_⟩
  · rw [sw pA (by simp) pB (by simp) (by simp only [pA, pB, point3]; norm_num), c1]
  · rw [sw pB (by simp) pC (by simp) (by simp only [pB, pC, point3]; norm_num), c2]
  · rw [sw pA (by simp) pC (by simp) (by simp only [pA, pC, point3]; norm_num), c3]

theorem points_mem : ∀ p ∈ [pA, pB, pC], ∀ i, p i ∈ Binary32 ∧ |p i| ≤ 1 / 2 := by
  intro p hp i
  simp only [List.mem_cons, List.not_mem_nil, or_false] at hp
  have z0 : (0 : ℝ) ∈ Binary32 := by simpa using div_mem_binary32 0 (by norm_num) (m := 0) (by norm_num)
  have mm : ∀ m : ℤ, |m| ≤ 2 ^ 21 → (m : ℝ) / 2 ^ 22 ∈ Binary32 ∧ |(m : ℝ) / 2 ^ 22| ≤ 1 / 2 := by
    intro m hm
    refine ⟨div_mem_binary32 22 (by norm_num) (hm.trans (by norm_num)), ?_⟩
    rw [abs_div, abs_of_pos (by positivity : (0 : ℝ) < 2 ^ 22), ← Int.cast_abs]
    have : ((|m| : ℤ) : ℝ) ≤ 2 ^ 21 := by exact_mod_cast hm
    rw [div_le_iff₀ (by positivity)]
    linarith
  rcases hp with rfl | rfl | rfl
  · have h1 := mm (-1286000) (by norm_num)
    have h2 := mm (-1252000) (by norm_num)
    have h3 := mm (-292000) (by norm_num)
    push_cast at h1 h2 h3
    unfold pA point3
    split_ifs
    · exact h1
    · exact h2
    · exact h3
    · exact ⟨z0, by norm_num⟩
  · have h1 := mm 319213 (by norm_num)
    have h2 := mm 311174 (by norm_num)
    have h3 := mm 72960 (by norm_num)
    push_cast at h1 h2 h3
    unfold pB point3
    split_ifs
    · exact h1
    · exact h2
    · exact h3
    · exact ⟨z0, by norm_num⟩
  · have h1 := mm 1286457 (by norm_num)
    have h2 := mm 1253087 (by norm_num)
    have h3 := mm 292871 (by norm_num)
    push_cast at h1 h2 h3
    unfold pC point3
    split_ifs
    · exact h1
    · exact h2
    · exact h3
    · exact ⟨z0, by norm_num⟩

theorem points_mink : MinkLe 3 pA pB ∧ MinkLe 3 pB pC ∧ MinkLe 3 pA pC := by
  have hsp : ∀ x y : Point, spaceSq 3 x y = (y 1 - x 1) ^ 2 + (y 2 - x 2) ^ 2 := by
    intro x y
    unfold spaceSq
    rw [show Finset.Ico 1 3 = {1, 2} by rfl, Finset.sum_pair (by norm_num)]
  refine ⟨?_, ?_, ?_⟩
  all_goals
    rw [minkLe_iff, hsp]
    simp only [pA, pB, pC, point3]
    norm_num

/-- **C115 (refuted: relations are lost, and the order is not transitive).** In three-dimensional Minkowski spacetime with the tolerance of the code, for coordinates in single precision
(and the sums in single precision, as with NumPy 2, or in double precision, as with NumPy 1; any rounding to nearest): there are three points in the unit cube, with `float32` coordinates,
each exactly in the past of the next, for which the answers are that the first precedes the second and the second precedes the third, but the first and the third are unrelated. -/
theorem C115_refuted (hr : IsRoundingTo Binary32 rnd) (hS : IsRoundingTo Binary32 rndS ∨ IsRoundingTo Binary64 rndS) (eps : ℝ) (he0 : 0 ≤ eps) (he : eps ≤ 2 / 10 ^ 12) :
    let c := causalityMinkMix rnd rndS eps 3
    ∃ x y z : Point, (∀ p ∈ [x, y, z], ∀ i, p i ∈ Binary32 ∧ |p i| ≤ 1 / 2) ∧ MinkLe 3 x y ∧ MinkLe 3 y z ∧ MinkLe 3 x z ∧
      c x y = (true, false) ∧ c y z = (true, false) ∧ c x z = (false, false) ∧ c z x = (false, false) := by
  intro c
  obtain ⟨c1, c2, c3, -, -, c6⟩ := points_answers hr hS eps he0 he
  exact ⟨pA, pB, pC, points_mem, points_mink.1, points_mink.2.1, points_mink.2.2, c1, c2, c3, c6⟩

/-- values of `rng.uniform` that give the three points -/
noncomputable def drawABC (i j : ℕ) (low high : ℝ) : ℝ :=
  let v := if i = 0 then pA j else if i = 1 then pB j else pC j
  if low ≤ v ∧ v ≤ high then v else low

/-- **C115 (refuted: a sprinkle is not always a causal set).** For every consistent state of the program and every order of iteration, there are values of the random generator (each
between the limits it was called with) for which `sprinkle(3)` on an empty causet in the unit cube in three-dimensional Minkowski spacetime, in single precision as above, makes events
`a`, `b`, `d` of the causet with `a < b` and `b < d` but not `a < d`, although the point of `a` is in the past of the point of `d`. -/
theorem C115_sprinkle_refuted (hr : IsRoundingTo Binary32 rnd) (hS : IsRoundingTo Binary32 rndS ∨ IsRoundingTo Binary64 rndS) (eps : ℝ) (he0 : 0 ≤ eps) (he : eps ≤ 2 / 10 ^ 12)
    (it : Iter) (s : SprState) (hs : s.events = ∅) (v : s.world.heap.Valid) (lx : s.world.heap.LinksExact) :
    ∃ S, CoordinateShape.init 3 "cube" {} = .ok S ∧ ∃ draw : ℕ → ℕ → ℝ → ℝ → ℝ,
      (∀ i j low high, low ≤ high → low ≤ draw i j low high ∧ draw i j low high ≤ high) ∧
      let r := (SprState.sprinkleBox32 (causalityMinkMix rnd rndS eps 3) it rnd draw 3 S 3 s).2
      r.events.card = 3 ∧ ∃ a ∈ r.events, ∃ b ∈ r.events, ∃ d ∈ r.events, ∃ x y z, r.world.crd a = some x ∧ r.world.crd b = some y ∧ r.world.crd d = some z ∧
        MinkLe 3 x y ∧ MinkLe 3 y z ∧ MinkLe 3 x z ∧ r.world.heap.Lt a b ∧ r.world.heap.Lt b d ∧ ¬ r.world.heap.Lt a d ∧ ¬ r.world.heap.Valid := by
  obtain ⟨c1, c2, c3, c4, c5, c6⟩ := points_answers hr hS eps he0 he
  have hinit : CoordinateShape.init 3 "cube" {} = .ok { dim := 3, name := "cube", center := [0, 0, 0], edge := some 1 } := by
    unfold CoordinateShape.init
    simp only [String.reduceEq, rangeFails, test]
    norm_num
    rw [if_neg (by decide)]
    rfl
  refine ⟨_, hinit, drawABC, ?_, ?_⟩
  · intro i j low high h
    unfold drawABC
    generalize (if i = 0 then pA j else if i = 1 then pB j else pC j) = v
    dsimp only
    split
    · assumption
    · exact ⟨le_rfl, h⟩
  intro r
  have half : rnd (1 / 2) = 1 / 2 := hr.fix (by simpa using div_mem_binary32 1 (by norm_num) (m := 1) (by norm_num))
  have hrow : ∀ i < 3, sprinkleCuboid32 rnd drawABC 3 { dim := 3, name := "cube", center := [0, 0, 0], edge := some 1 } i = if i = 0 then pA else if i = 1 then pB else pC := by
    intro i hi
    funext j
    by_cases hj : j < 3
    · have hcen : ([0, 0, 0] : List ℝ).getD j 0 = 0 := by
        have : j = 0 ∨ j = 1 ∨ j = 2 := by omega
        rcases this with rfl | rfl | rfl <;> rfl
      have e : sprinkleCuboid32 rnd drawABC 3 { dim := 3, name := "cube", center := [0, 0, 0], edge := some 1 } i j = rnd (drawABC i j (-(1 / 2)) (1 / 2)) := by
        unfold sprinkleCuboid32
        rw [if_pos hj]
        simp only [String.reduceEq, if_false, Option.getD_some, hcen]
        rw [zero_sub, zero_add, hr.odd, half]
      rw [e]
      obtain ⟨hmem, hb⟩ : (if i = 0 then pA j else if i = 1 then pB j else pC j) ∈ Binary32 ∧ |if i = 0 then pA j else if i = 1 then pB j else pC j| ≤ 1 / 2 := by
        split_ifs
        · exact points_mem pA (by simp) j
        · exact points_mem pB (by simp) j
        · exact points_mem pC (by simp) j
      have hd : drawABC i j (-(1 / 2)) (1 / 2) = if i = 0 then pA j else if i = 1 then pB j else pC j := by
        unfold drawABC
        dsimp only
        rw [if_pos (abs_le.1 hb)]
      rw [hd, hr.fix hmem]
      split_ifs <;> rfl
    · have e : sprinkleCuboid32 rnd drawABC 3 { dim := 3, name := "cube", center := [0, 0, 0], edge := some 1 } i j = 0 := by
        unfold sprinkleCuboid32; rw [if_neg hj]
      rw [e]
      have h0 : j ≠ 0 := by omega
      have h1 : j ≠ 1 := by omega
      have h2 : j ≠ 2 := by omega
      split_ifs <;> simp [pA, pB, pC, point3, h0, h1, h2]
  have hrows : (List.range 3).map (sprinkleCuboid32 rnd drawABC 3 { dim := 3, name := "cube", center := [0, 0, 0], edge := some 1 }) = [pA, pB, pC] := by
    rw [show List.range 3 = [0, 1, 2] by rfl]
    simp only [List.map_cons, List.map_nil, hrow 0 (by norm_num), hrow 1 (by norm_num), hrow 2 (by norm_num)]
    simp
  set c := causalityMinkMix rnd rndS eps 3 with hc
  have hrr : r = { events := (create c it ∅ [pA, pB, pC] none true s.world).1, intensity := s.intensity + (3 : ℕ), world := (create c it ∅ [pA, pB, pC] none true s.world).2.2.2 } := by
    simp only [r, SprState.sprinkleBox32]
    rw [hrows]
    unfold SprState.superCreate
    rw [hs]
    dsimp only
    split <;> rfl
  obtain ⟨w1, e1, -, -, -, -, -, -, g3, -⟩ := create_stage c it ∅ [pA, pB, pC] none s.world v lx (by simp) (by intro x hx; simp at hx)
  set n := s.world.heap.next with hn
  have hcrd : ∀ C : Finset EId, (relate c it C true w1).2.crd = w1.crd := by
    intro C
    unfold relate
    split <;> rfl
  have hcrd' : (create c it ∅ [pA, pB, pC] none true s.world).2.2.2.crd = w1.crd := by
    rw [e1]; exact hcrd _
  have hev : (create c it ∅ [pA, pB, pC] none true s.world).1 = {n, n + 1, n + 2} := by
    rw [e1]
    dsimp only
    rw [Finset.empty_union]
    ext e
    simp only [List.length_cons, List.length_nil, List.mem_toFinset, List.mem_range'_1, Finset.mem_insert, Finset.mem_singleton]
    omega
  have k0 : w1.crd n = some pA := by simpa using g3 0 (by simp)
  have k1 : w1.crd (n + 1) = some pB := by simpa using g3 1 (by simp)
  have k2 : w1.crd (n + 2) = some pC := by simpa using g3 2 (by simp)
  let pos : EId → Point := fun e => (w1.crd e).getD pA
  obtain ⟨L, hnd, hmem, hL⟩ := C42_create_any c it ∅ [pA, pB, pC] none s.world v lx (by simp) (by intro x hx; simp at hx) (by simp) pos (by
    intro e x hx
    rw [hcrd'] at hx
    simp [pos, hx])
  have p0 : pos n = pA := by simp [pos, k0]
  have p1 : pos (n + 1) = pB := by simp [pos, k1]
  have p2 : pos (n + 2) = pC := by simp [pos, k2]
  have m0 : n ∈ (create c it ∅ [pA, pB, pC] none true s.world).1 := by rw [hev]; simp
  have m1 : n + 1 ∈ (create c it ∅ [pA, pB, pC] none true s.world).1 := by rw [hev]; simp
  have m2 : n + 2 ∈ (create c it ∅ [pA, pB, pC] none true s.world).1 := by rw [hev]; simp
  have l1 : r.world.heap.Lt n (n + 1) := by
    rw [hrr]; dsimp only
    rw [hL n m0 (n + 1) m1]
    unfold RelOf
    rw [p0, p1, c1, c4]
    have := before_total hnd ((hmem n).2 m0) ((hmem (n + 1)).2 m1) (by omega)
    tauto
  have l2 : r.world.heap.Lt (n + 1) (n + 2) := by
    rw [hrr]; dsimp only
    rw [hL (n + 1) m1 (n + 2) m2]
    unfold RelOf
    rw [p1, p2, c2, c5]
    have := before_total hnd ((hmem (n + 1)).2 m1) ((hmem (n + 2)).2 m2) (by omega)
    tauto
  have l3 : ¬ r.world.heap.Lt n (n + 2) := by
    rw [hrr]; dsimp only
    rw [hL n m0 (n + 2) m2]
    unfold RelOf
    rw [p0, p2, c3, c6]
    simp
  have hw : r.world.crd = w1.crd := by rw [hrr]; exact hcrd'
  refine ⟨?_, n, ?_, n + 1, ?_, n + 2, ?_, pA, pB, pC, by rw [hw]; exact k0, by rw [hw]; exact k1, by rw [hw]; exact k2, points_mink.1, points_mink.2.1, points_mink.2.2, l1, l2, l3,
    fun hv => l3 (hv.order.trans _ _ _ l1 l2)⟩
  · rw [hrr]; dsimp only; rw [hev]
    rw [Finset.card_insert_of_notMem (by simp), Finset.card_insert_of_notMem (by simp), Finset.card_singleton]
  · rw [hrr]; exact m0
  · rw [hrr]; exact m1
  · rw [hrr]; exact m2

end Causets
