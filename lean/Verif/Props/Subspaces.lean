import Verif.Props.SymmetryCurved
import Verif.Props.BlackHole

/-! # C126 — spacetimes agree where they overlap; C122 — reversal of time -/

namespace Causets

/-- **C126, small regions of periodic spacetimes.** For points that are at most half a period apart in every periodic direction, periodic flat spacetimes give the same values as Minkowski spacetime, with
every tolerance. -/
theorem C126_periodic (eps : ℝ) (M : FlatSpacetime) (x y : Point) (h : ∀ i, 1 ≤ i → i < M.dim → (M.period.getD []).getD (i - 1) 0 > 0 → 2 * |y i - x i| ≤ (M.period.getD []).getD (i - 1) 0) :
    M.causality eps x y = (⟨M.dim, false, none⟩ : FlatSpacetime).causality eps x y := by
  have key : ∀ i, 1 ≤ i → i < M.dim → periodicDelta ((M.period.getD []).getD (i - 1) 0) (y i - x i) = |y i - x i| := by
    intro i h1 h2
    unfold periodicDelta
    split
    · rename_i h3
      exact min_eq_left (by linarith [h i h1 h2 h3])
    · rfl
  unfold FlatSpacetime.causality
  by_cases h1 : M.dim = 1
  · rw [if_pos h1, if_pos h1]
  · rw [if_neg h1, if_neg h1]
    cases M.isPeriodic with
    | false => rfl
    | true =>
      simp only [Bool.not_true, Bool.false_eq_true, if_false, Bool.not_false, if_true]
      by_cases h2 : M.dim = 2
      · rw [if_pos h2, if_pos h2]
        unfold causalityFlat2DPeriodic causalityFlat2D
        have := key 1 le_rfl (by omega)
        rw [Nat.sub_self] at this
        dsimp only
        rw [this, abs_abs]
      · rw [if_neg h2, if_neg h2]
        unfold causalityFlatPeriodic causalityFlat spaceSq
        dsimp only
        rw [Finset.sum_congr rfl fun i hi => by rw [key i (Finset.mem_Ico.1 hi).1 (Finset.mem_Ico.1 hi).2, sq_abs]]

/-- The bound is sharp (exact comparisons): at every distance above half the period there are points for which the two spacetimes disagree. -/
theorem C126_periodic_sharp (p d : ℝ) (hp : 0 < p) (h1 : p < 2 * d) (h2 : d ≤ p) : ∃ x y : Point, y 1 - x 1 = d ∧
    (⟨2, true, some [p]⟩ : FlatSpacetime).causality 0 x y = (true, false) ∧ (⟨2, false, none⟩ : FlatSpacetime).causality 0 x y = (false, false) := by
  refine ⟨fun _ => 0, fun i => if i = 0 then p - d else d, by simp, ?_, ?_⟩
  · have e : periodicDelta p d = p - d := by
      unfold periodicDelta
      rw [if_pos hp, abs_of_pos (by linarith), min_eq_right (by linarith)]
    have h3 : 0 ≤ p - d := by linarith
    simp [FlatSpacetime.causality, causalityFlat2DPeriodic, e, test, h2]
  · have h3 : 0 ≤ p - d := by linarith
    have h4 : ¬ d ≤ p - d := by linarith
    have h5 : 0 < d := by linarith
    simp [FlatSpacetime.causality, causalityFlat2D, test, h2, abs_of_nonneg h3, abs_of_pos h5, h4]

theorem space_sub {d d' : ℕ} (h1 : 1 ≤ d) (hd : d ≤ d') (x y : Point) (h : ∀ i, d ≤ i → i < d' → x i = y i) : spaceSq d' x y = spaceSq d x y := by
  unfold spaceSq
  rw [← Finset.sum_Ico_consecutive _ h1 hd, add_eq_left]
  exact Finset.sum_eq_zero fun i hi => by rw [h i (Finset.mem_Ico.1 hi).1 (Finset.mem_Ico.1 hi).2, sub_self]; norm_num

theorem norm_sub {d d' : ℕ} (h1 : 1 ≤ d) (hd : d ≤ d') (x : Point) (h : ∀ i, d ≤ i → i < d' → x i = 0) : ∑ i ∈ Finset.Ico 1 d', (x i) ^ 2 = ∑ i ∈ Finset.Ico 1 d, (x i) ^ 2 := by
  rw [← Finset.sum_Ico_consecutive _ h1 hd, add_eq_left]
  exact Finset.sum_eq_zero fun i hi => by rw [h i (Finset.mem_Ico.1 hi).1 (Finset.mem_Ico.1 hi).2]; norm_num

/-- **C126, subspaces of Minkowski spacetime.** Points that agree in the coordinates from `d` on have the same causal relations in `d'` dimensions as in `d` dimensions: with every tolerance if `d` is at least 3, with
exact comparisons if `d` is 1 or 2. -/
theorem C126_Minkowski {d d' : ℕ} (h1 : 1 ≤ d) (hd : d ≤ d') (eps : ℝ) (he : 3 ≤ d ∨ eps = 0) (x y : Point) (h : ∀ i, d ≤ i → i < d' → x i = y i) :
    (⟨d', false, none⟩ : FlatSpacetime).causality eps x y = (⟨d, false, none⟩ : FlatSpacetime).causality eps x y := by
  have sub := space_sub h1 hd x y h
  rcases he with he | rfl
  · simp only [FlatSpacetime.causality, show d ≠ 1 by omega, show d ≠ 2 by omega, show d' ≠ 1 by omega, show d' ≠ 2 by omega, if_false, Bool.not_false, if_true]
    unfold causalityFlat
    rw [sub]
  · have gen : ∀ n, 1 ≤ n → (⟨n, false, none⟩ : FlatSpacetime).causality 0 x y = causalityFlat 0 n x y := by
      intro n hn
      simp only [FlatSpacetime.causality, Bool.not_false, if_true]
      split
      · rename_i h
        subst h
        unfold causalityBase causalityFlat spaceSq
        have : test ((y 0 - x 0) ^ 2 ≥ ∑ i ∈ Finset.Ico 1 1, (y i - x i) ^ 2 - 0) = true := by
          simp only [Finset.Ico_self, Finset.sum_empty, sub_zero, test, decide_eq_true_eq]
          positivity
        dsimp only
        rw [this, Bool.and_true, Bool.and_true]
      · split
        · rename_i h
          subst h
          unfold causalityFlat2D causalityFlat spaceSq
          have : test (|y 0 - x 0| ≥ |y 1 - x 1| - 0) = test ((y 0 - x 0) ^ 2 ≥ ∑ i ∈ Finset.Ico 1 2, (y i - x i) ^ 2 - 0) := by
            apply test_congr
            simp only [sub_zero, ge_iff_le, Nat.Ico_succ_singleton, Finset.sum_singleton]
            exact sq_le_sq.symm
          dsimp only
          rw [this]
        · rfl
    rw [gen d h1, gen d' (h1.trans hd)]
    unfold causalityFlat
    rw [sub]

/-- **C126 is refuted for two dimensions with the tolerance of the library.** Two points of a plane that are related in three-dimensional but not in two-dimensional Minkowski spacetime. -/
theorem C126_refuted : ∃ x y : Point, x 2 = y 2 ∧ (⟨3, false, none⟩ : FlatSpacetime).causality causalityEps x y = (true, false) ∧ (⟨2, false, none⟩ : FlatSpacetime).causality causalityEps x y = (false, false) := by
  refine ⟨fun _ => 0, fun i => if i = 1 then 1 / 10 ^ 6 else 0, by simp, ?_, ?_⟩
  · have h : (⟨3, false, none⟩ : FlatSpacetime).causality causalityEps = causalityFlat causalityEps 3 := by simp [FlatSpacetime.causality]
    have e : spaceSq 3 (fun _ => 0) (fun i => if i = 1 then 1 / 10 ^ 6 else 0) = 1 / 10 ^ 12 := by
      unfold spaceSq
      rw [Finset.sum_Ico_succ_top (by norm_num)]
      norm_num
    rw [h]
    unfold causalityFlat
    rw [e]
    norm_num [causalityEps, test]
  · have h : (⟨2, false, none⟩ : FlatSpacetime).causality causalityEps = causalityFlat2D causalityEps := by simp [FlatSpacetime.causality]
    rw [h]
    unfold causalityFlat2D
    norm_num [causalityEps, test, abs_of_pos]

/-- **C126, subspaces of (anti-)de Sitter spacetime.** Points whose coordinates from `d` on are zero have the same causal relations in `d'` dimensions as in `d` dimensions, with every tolerance. -/
theorem C126_curved {d d' : ℕ} (h1 : 1 ≤ d) (hd : d ≤ d') (eps alpha : ℝ) (x y : Point) (hx : ∀ i, d ≤ i → i < d' → x i = 0) (hy : ∀ i, d ≤ i → i < d' → y i = 0) :
    causalityDS eps d' alpha x y = causalityDS eps d alpha x y ∧ causalityAdS eps d' alpha x y = causalityAdS eps d alpha x y := by
  have sub := space_sub h1 hd x y fun i a b => by rw [hx i a b, hy i a b]
  constructor
  · unfold causalityDS
    rw [sub, norm_sub h1 hd x hx, norm_sub h1 hd y hy]
  · unfold causalityAdS
    rw [sub, norm_sub h1 hd x hx, norm_sub h1 hd y hy]

/-- **C126, causal sets.** If two spacetimes agree on the points of the events, `create` does the same in both: the same events, labels, order and links, the same result or exception. -/
theorem C126_create {c c' : Point → Point → Bool × Bool} (S : Set Point) (hc : ∀ x ∈ S, ∀ y ∈ S, c' x y = c x y) (it : Iter) (C : Finset EId) (coords : List Point) (hx : ∀ x ∈ coords, x ∈ S)
    (fmt : Option (ℕ → String)) (doRelate : Bool) (w : World Point) (hw : ∀ e ∈ C, ∀ x, w.crd e = some x → x ∈ S) :
    create c' it C coords fmt doRelate w = create c it C coords fmt doRelate w := by
  have hm : ∀ w : World Point, w.moved id = w := fun w => by
    cases w
    simp [World.moved]
  have := C122_create c c' id S hc it C coords hx fmt doRelate w hw
  rw [List.map_id, hm] at this
  dsimp only at this
  rw [this, hm]

/-- The hypotheses are met by two points of a plane in four dimensions, half a period apart. -/
example : (∀ i, 1 ≤ i → i < (⟨2, true, some [2]⟩ : FlatSpacetime).dim → ((some [2] : Option (List ℝ)).getD []).getD (i - 1) 0 > 0 →
      2 * |(fun i => if i = 1 then 1 else 0 : Point) i - (fun _ => 0 : Point) i| ≤ ((some [2] : Option (List ℝ)).getD []).getD (i - 1) 0) ∧
    (∀ i, 2 ≤ i → i < 4 → (fun i => if i = 1 then 1 else 0 : Point) i = 0) := by
  refine ⟨fun i h1 h2 _ => ?_, fun i h _ => if_neg (by omega)⟩
  have : i = 1 := by simp only at h2; omega
  subst this
  norm_num

/-- the event with the opposite time -/
noncomputable def reverseTime (x : Point) : Point := fun i => if i = 0 then - x 0 else x i

theorem reverse_zero (x : Point) : reverseTime x 0 = - x 0 := by simp [reverseTime]
theorem reverse_pos (x : Point) {i : ℕ} (h : 1 ≤ i) : reverseTime x i = x i := by simp [reverseTime, show i ≠ 0 by omega]

theorem reverse_space (dim : ℕ) (x y : Point) : spaceSq dim (reverseTime x) (reverseTime y) = spaceSq dim y x := by
  unfold spaceSq
  refine Finset.sum_congr rfl fun i hi => ?_
  rw [reverse_pos _ (Finset.mem_Ico.1 hi).1, reverse_pos _ (Finset.mem_Ico.1 hi).1]
  ring

theorem reverse_norm (dim : ℕ) (x : Point) : ∑ i ∈ Finset.Ico 1 dim, (reverseTime x i) ^ 2 = ∑ i ∈ Finset.Ico 1 dim, (x i) ^ 2 := by
  refine Finset.sum_congr rfl fun i hi => ?_
  rw [reverse_pos _ (Finset.mem_Ico.1 hi).1]

theorem periodicDelta_neg (p d : ℝ) : periodicDelta p (-d) = periodicDelta p d := by
  unfold periodicDelta
  rw [abs_neg]

/-- **C122, reversal of time.** In flat and (anti-)de Sitter spacetimes, with every tolerance, the causality function gives for two events with opposite times what it gives for the exchanged events. -/
theorem C122_reversal (eps : ℝ) (x y : Point) :
    (∀ M : FlatSpacetime, M.causality eps (reverseTime x) (reverseTime y) = M.causality eps y x) ∧
    (∀ dim alpha, causalityDS eps dim alpha (reverseTime x) (reverseTime y) = causalityDS eps dim alpha y x) ∧
    (∀ dim alpha, causalityAdS eps dim alpha (reverseTime x) (reverseTime y) = causalityAdS eps dim alpha y x) := by
  have t : reverseTime y 0 - reverseTime x 0 = x 0 - y 0 := by rw [reverse_zero, reverse_zero]; ring
  have s : ∀ {i}, 1 ≤ i → reverseTime y i - reverseTime x i = -(x i - y i) := fun h => by rw [reverse_pos _ h, reverse_pos _ h]; ring
  refine ⟨fun M => ?_, fun dim alpha => ?_, fun dim alpha => ?_⟩
  · unfold FlatSpacetime.causality
    split
    · unfold causalityBase; rw [t]
    · split
      · split
        · unfold causalityFlat2D; rw [t, s le_rfl, abs_neg]
        · unfold causalityFlat; rw [t, reverse_space]
      · dsimp only
        split
        · unfold causalityFlat2DPeriodic; rw [t, s le_rfl, periodicDelta_neg]
        · unfold causalityFlatPeriodic
          rw [t]
          dsimp only
          rw [Finset.sum_congr rfl fun i hi => by rw [s (Finset.mem_Ico.1 hi).1, periodicDelta_neg]]
  · unfold causalityDS
    rw [reverse_space, reverse_norm, reverse_norm, reverse_zero, reverse_zero, neg_div, neg_div, Real.sinh_neg, Real.sinh_neg, Real.cosh_neg, Real.cosh_neg]
    dsimp only
    have e : ∀ a b c d : ℝ, b * -d - a * -c = a * c - b * d := fun a b c d => by ring
    have e' : ∀ a b : ℝ, (a - b) ^ 2 = (b - a) ^ 2 := fun a b => by ring
    rw [e, Bool.or_comm, e' (_ * Real.cosh (y 0 / alpha))]
  · unfold causalityAdS
    rw [reverse_space, reverse_norm, reverse_norm, reverse_zero, reverse_zero, neg_div, neg_div, Real.sin_neg, Real.sin_neg, Real.cos_neg, Real.cos_neg]
    dsimp only
    have e : ∀ a b c d : ℝ, b * -d - a * -c = a * c - b * d := fun a b c d => by ring
    have e' : ∀ a b : ℝ, (a - b) ^ 2 = (b - a) ^ 2 := fun a b => by ring
    rw [e, e' (_ * Real.cos (y 0 / alpha))]

/-- Black holes have no reversal of time: an ingoing light ray enters the black hole, the reversed one does not. -/
theorem C122_reversal_refuted : ∃ x y : Point, |x 1| ≠ 1 ∧ |y 1| ≠ 1 ∧ (causalityBH .eddingtonFinkelstein 1 x y).1 = true ∧
    causalityBH .eddingtonFinkelstein 1 (reverseTime x) (reverseTime y) = (false, false) := by
  refine ⟨fun i => if i = 0 then 0 else 2, fun i => if i = 0 then 2 else 1 / 2, by norm_num, by norm_num [abs_of_pos], ?_, ?_⟩
  · rw [C44_EF one_pos _ _ (by norm_num) (by norm_num [abs_of_pos])]
    refine ⟨by norm_num, by norm_num [abs_of_pos], fun h => ?_, fun _ h => ?_⟩
    · norm_num at h
    · norm_num [abs_of_pos] at h
  · have h1 : |reverseTime (fun i => if i = 0 then 0 else 2) 1| ≠ 1 := by norm_num [reverseTime]
    have h2 : |reverseTime (fun i => if i = 0 then 2 else 1 / 2) 1| ≠ 1 := by norm_num [reverseTime, abs_of_pos]
    have a := (C44_EF one_pos _ _ h1 h2)
    have b := (C44_EF one_pos _ _ h2 h1)
    have c := (C44_EF_order one_pos).1.after _ h1 _ h2
    have na : ¬ EFLe 1 (reverseTime (fun i => if i = 0 then 0 else 2)) (reverseTime (fun i => if i = 0 then 2 else 1 / 2)) := by
      rintro ⟨-, h, -⟩
      norm_num [reverseTime, abs_of_pos] at h
    have nb : ¬ EFLe 1 (reverseTime (fun i => if i = 0 then 2 else 1 / 2)) (reverseTime (fun i => if i = 0 then 0 else 2)) := by
      rintro ⟨-, -, h, -⟩
      norm_num [reverseTime, abs_of_pos] at h
    rw [← a, Bool.not_eq_true] at na
    rw [← b, Bool.not_eq_true] at nb
    refine Prod.ext na ?_
    rw [nb] at c
    simpa using c

end Causets
