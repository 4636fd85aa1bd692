import Verif.Props.Rows

/-! # C117 — rows of different lengths in (anti-)de Sitter spacetime -/

namespace Causets

/-- **Specification.** The sum of the squares of the space coordinates of a row, as it is (not stretched). -/
noncomputable def ownSq (x : Row) : ℝ := (x.tail.map (· ^ 2)).sum

/-- **C117, values, rows of any lengths in curved spacetimes.** If one of the rows has a single space coordinate, this coordinate is repeated in all directions for the differences of the space
coordinates, but not for the distances from the origin that give the embedding times: the code then compares points of the embedding space that are not on the hyperboloid of the spacetime of the longer
row. -/
theorem C117_curved_broadcast (eps alpha : ℝ) (d : ℕ) (x y : Row) (hx : x ≠ []) (hy : y ≠ []) (h : SameShape x y) :
    let s := spaceSq (commonLength x y) (rowPoint (stretch (commonLength x y) x)) (rowPoint (stretch (commonLength x y) y))
    let tx := x.headD 0 / alpha
    let ty := y.headD 0 / alpha
    (SpacetimeObj.causalityRows eps (.deSitter d alpha) x y = .ok (
      if alpha ^ 2 ≤ ownSq x ∨ alpha ^ 2 ≤ ownSq y then (false, false)
      else
        let ax := Real.sqrt (alpha ^ 2 - ownSq x)
        let ay := Real.sqrt (alpha ^ 2 - ownSq y)
        let causal := test (s + (ay * Real.cosh ty - ax * Real.cosh tx) ^ 2 - eps ≤ (ay * Real.sinh ty - ax * Real.sinh tx) ^ 2)
        (test (ax * Real.sinh tx ≤ ay * Real.sinh ty) && causal, test (ay * Real.sinh ty < ax * Real.sinh tx) && causal))) ∧
    (SpacetimeObj.causalityRows eps (.antiDeSitter d alpha) x y = .ok (
        let ax := Real.sqrt (alpha ^ 2 + ownSq x)
        let ay := Real.sqrt (alpha ^ 2 + ownSq y)
        let causal := test (s - eps ≤ (ay * Real.sin ty - ax * Real.sin tx) ^ 2 + (ay * Real.cos ty - ax * Real.cos tx) ^ 2)
        (test (ax * Real.sin tx ≤ ay * Real.sin ty) && causal, test (ay * Real.sin ty < ax * Real.sin tx) && causal))) := by
  obtain ⟨dd, hd, hd2⟩ := rowSub_stretch hx hy h
  have hx1 : 0 < x.length := List.length_pos_iff.2 hx
  have hy1 : 0 < y.length := List.length_pos_iff.2 hy
  have h0 : ∀ z : Row, rowPoint z 0 = z.headD 0 := by
    intro z
    cases z <;> rfl
  have hge : ∀ a b : ℝ, test (a - b ≥ 0) = test (b ≤ a) := by
    intro a b
    unfold test
    simp
  have hlt : ∀ a b : ℝ, test (a - b < 0) = test (a < b) := by
    intro a b
    unfold test
    simp
  dsimp only
  constructor
  · simp only [SpacetimeObj.causalityRows, causalityDSRow]
    have e1 : rowSq x.tail = ownSq x := rfl
    have e2 : rowSq y.tail = ownSq y := rfl
    rw [e1, e2]
    by_cases hb : alpha ^ 2 ≤ ownSq x ∨ alpha ^ 2 ≤ ownSq y
    · rw [if_pos hb, if_pos (by simpa [test] using hb)]
    · rw [if_neg hb, if_neg (by simpa [test] using hb), rowAt_ok hx1, rowAt_ok hy1, hd]
      simp only [bind, Except.bind, pure, Except.pure]
      rw [hd2, h0, h0, hge, hlt]
  · simp only [SpacetimeObj.causalityRows, causalityAdSRow]
    have e1 : rowSq x.tail = ownSq x := rfl
    have e2 : rowSq y.tail = ownSq y := rfl
    rw [e1, e2, rowAt_ok hx1, rowAt_ok hy1, hd]
    simp only [bind, Except.bind, pure, Except.pure]
    rw [hd2, h0, h0, hge, hlt]

/-- **C117, refuted: repeated coordinates are not the coordinates of a point.** In Minkowski spacetime a row with one space coordinate is compared as the row with this coordinate in all directions
(C117_flat_values); in de Sitter spacetime it is not: the row (0, 1/2) and the row (0, 1/2, 1/2) are unrelated, although a row is related to itself. -/
theorem C117_curved_refuted (d : ℕ) (eps : ℝ) (h0 : 0 ≤ eps) (he : eps ≤ 1 / 100) :
    SpacetimeObj.causalityRows eps (.deSitter d 1) [0, 1/2] [0, 1/2, 1/2] = .ok (false, false) ∧
    stretch 3 [0, 1/2] = [0, 1/2, 1/2] ∧
    SpacetimeObj.causalityRows eps (.deSitter d 1) [0, 1/2, 1/2] [0, 1/2, 1/2] = .ok (true, false) := by
  refine ⟨?_, by simp [stretch], ?_⟩
  · rw [(C117_curved_broadcast eps 1 d [0, 1/2] [0, 1/2, 1/2] (by simp) (by simp) (Or.inr (Or.inl rfl))).1]
    rw [if_neg (by norm_num [ownSq])]
    have hs : spaceSq (commonLength [0, 1/2] [0, 1/2, 1/2]) (rowPoint (stretch (commonLength [0, 1/2] [0, 1/2, 1/2]) [0, 1/2]))
        (rowPoint (stretch (commonLength [0, 1/2] [0, 1/2, 1/2]) [0, 1/2, 1/2])) = 0 := by
      simp [commonLength, stretch, spaceSq]
    have o1 : ownSq [0, 1/2] = 1/4 := by norm_num [ownSq]
    have o2 : ownSq [0, 1/2, 1/2] = 1/2 := by norm_num [ownSq]
    rw [hs, o1, o2]
    have hn : ¬ (0 + (Real.sqrt ((1:ℝ) ^ 2 - 1/2) * Real.cosh 0 - Real.sqrt ((1:ℝ) ^ 2 - 1/4) * Real.cosh 0) ^ 2 - eps ≤
        (Real.sqrt ((1:ℝ) ^ 2 - 1/2) * Real.sinh 0 - Real.sqrt ((1:ℝ) ^ 2 - 1/4) * Real.sinh 0) ^ 2) := by
      rw [Real.cosh_zero, Real.sinh_zero]
      have a := Real.sq_sqrt (show (0:ℝ) ≤ 1 ^ 2 - 1/2 by norm_num)
      have b := Real.sq_sqrt (show (0:ℝ) ≤ 1 ^ 2 - 1/4 by norm_num)
      have ab : Real.sqrt ((1:ℝ) ^ 2 - 1/2) ≤ 0.7072 := Real.sqrt_le_iff.2 ⟨by norm_num, by norm_num⟩
      have bb : (0.866:ℝ) ≤ Real.sqrt ((1:ℝ) ^ 2 - 1/4) := Real.le_sqrt_of_sq_le (by norm_num)
      nlinarith
    simp only [List.headD_cons, zero_div]
    simp only [test, decide_eq_false hn, Bool.and_false]
  · rw [(C117_curved_broadcast eps 1 d [0, 1/2, 1/2] [0, 1/2, 1/2] (by simp) (by simp) (Or.inl rfl)).1]
    rw [if_neg (by norm_num [ownSq])]
    have hs : spaceSq (commonLength [0, 1/2, 1/2] [0, 1/2, 1/2]) (rowPoint (stretch (commonLength [0, 1/2, 1/2] [0, 1/2, 1/2]) [0, 1/2, 1/2]))
        (rowPoint (stretch (commonLength [0, 1/2, 1/2] [0, 1/2, 1/2]) [0, 1/2, 1/2])) = 0 := by
      simp [spaceSq]
    rw [hs]
    simp [test, h0]

end Causets
