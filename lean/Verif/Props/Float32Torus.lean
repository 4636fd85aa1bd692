import Verif.Props.Float32Period

/-! # C119 — periodic flat spacetimes in single precision: the answers -/

namespace Causets

variable {A : NpArith}

/-- the rounding of the distance does not depend on the order of the points -/
theorem delta_symm (hr : IsRoundingTo Binary32 A.r32) (kind : ℕ → NumKind) (period : ℕ → ℝ) (i : ℕ) (x y : Point) : A.delta kind period i y x = A.delta kind period i x y := by
  unfold NpArith.delta
  rw [hr.sub_comm (x i) (y i), abs_neg]

/-- all these causality functions have this form -/
theorem form32 (hr : IsRoundingTo Binary32 A.r32) (eps : ℝ) (kind : ℕ → NumKind) (M : FlatSpacetime) :
    ∃ causal : Point → Point → Prop, (∀ x y, causal x y → causal y x) ∧
      ∀ x y, M.causality32 A eps kind x y = (test (A.r32 (y 0 - x 0) ≥ 0) && test (causal x y), test (A.r32 (y 0 - x 0) < 0) && test (causal x y)) := by
  unfold FlatSpacetime.causality32
  split
  · exact ⟨fun _ _ => True, fun _ _ => id, fun x y => by simp [causalityBaseFl]⟩
  · split
    · exact mink_formMix hr _ _ _
    · dsimp only
      split
      · refine ⟨fun x y => |A.r32 (y 0 - x 0)| ≥ (A.subEps (.np ⟨|(A.delta kind (fun i => (M.period.getD []).getD i 0) 1 x y).val|,
          (A.delta kind (fun i => (M.period.getD []).getD i 0) 1 x y).wide⟩) eps).val, fun x y h => ?_, fun x y => rfl⟩
        dsimp only at h ⊢
        rw [hr.sub_comm (x 0), abs_neg, delta_symm hr]; exact h
      · refine ⟨fun x y => A.r32 (A.r32 (y 0 - x 0) ^ 2) ≥ (A.subEps ((List.range' 1 (M.dim - 1)).foldl
          (fun s i => PyNum.np (A.addTo s (A.square (A.delta kind (fun i => (M.period.getD []).getD i 0) i x y)))) (.py 0)) eps).val, fun x y h => ?_, fun x y => rfl⟩
        dsimp only at h ⊢
        rw [hr.sub_comm (x 0), neg_sq]
        simp only [delta_symm hr _ _ _ x y]
        exact h

/-- **C119, directions.** In flat spacetime of any dimension with any periods, with `float32` coordinates, any types of the periods and both promotion rules: never both directions; the
second answer means "the second point precedes the first, and not conversely"; the answers respect the order of the times exactly; for different times swapping the points swaps the
answers. -/
theorem C119_directions (hr : IsRoundingTo Binary32 A.r32) (eps : ℝ) (kind : ℕ → NumKind) (M : FlatSpacetime) (x y : Point) (hx : x 0 ∈ Binary32) (hy : y 0 ∈ Binary32) :
    let c := M.causality32 A eps kind
    ¬ ((c x y).1 = true ∧ (c x y).2 = true) ∧ ((c x y).2 = true ↔ (c y x).1 = true ∧ (c x y).1 = false) ∧
    ((c x y).1 = true → x 0 ≤ y 0) ∧ ((c x y).2 = true → y 0 < x 0) ∧ (x 0 ≠ y 0 → c y x = ((c x y).2, (c x y).1)) := by
  intro c
  obtain ⟨causal, hs, hf⟩ := form32 hr eps kind M
  obtain ⟨h1, h2⟩ := directions_of_form (fun x y => hr.sub_comm (x 0) (y 0)) hs hf x y
  have hp : 1 ≤ 24 := by norm_num
  have k1 : (c x y).1 = true → x 0 ≤ y 0 := by
    intro h
    simp only [c, hf x y, test, Bool.and_eq_true, decide_eq_true_eq] at h
    exact (sub_nonneg_floatNum hp hr hx hy).1 h.1
  have k2 : (c x y).2 = true → y 0 < x 0 := by
    intro h
    simp only [c, hf x y, test, Bool.and_eq_true, decide_eq_true_eq] at h
    by_contra hc
    exact absurd ((sub_nonneg_floatNum hp hr hx hy).2 (not_lt.1 hc)) (not_le.2 h.1)
  refine ⟨h1, h2, k1, k2, fun hne => ?_⟩
  have hs' : causal x y ↔ causal y x := ⟨hs x y, hs y x⟩
  have e1 : A.r32 (y 0 - x 0) ≥ 0 ↔ A.r32 (x 0 - y 0) < 0 := by
    rw [ge_iff_le, sub_nonneg_floatNum hp hr hx hy, ← not_le, sub_nonneg_floatNum hp hr hy hx, not_le]
    exact ⟨fun h => lt_of_le_of_ne h hne, le_of_lt⟩
  have e2 : A.r32 (y 0 - x 0) < 0 ↔ A.r32 (x 0 - y 0) ≥ 0 := by
    rw [← not_iff_not, not_lt, ge_iff_le, not_le]; exact e1
  have f1 : test (causal y x) = test (causal x y) := decide_eq_decide.2 hs'.symm
  have f2 : test (A.r32 (x 0 - y 0) < 0) = test (A.r32 (y 0 - x 0) ≥ 0) := decide_eq_decide.2 e1.symm
  have f3 : test (A.r32 (x 0 - y 0) ≥ 0) = test (A.r32 (y 0 - x 0) < 0) := decide_eq_decide.2 e2.symm
  simp only [c]
  rw [hf x y, hf y x, f1, f2, f3]

/-- **C119, accuracy.** For `float32` coordinates in flat spacetime of up to 100000 dimensions with any periods of any types, both promotion rules, and points that differ by at most the
periods: the answer is "first precedes second" whenever the first time is not later and the squared distance (the distance in two dimensions) on the torus plus the margin is at most that
of the times plus the tolerance, and this answer is only given if the first time is not later and the distance is at most that of the times plus the tolerance and the margin. -/
theorem C119_accuracy (hA : A.Accurate) (eps : ℝ) (heps : 0 ≤ eps) (kind : ℕ → NumKind) (M : FlatSpacetime) (hd1 : 1 ≤ M.dim) (hd2 : M.dim ≤ 100000) (x y : Point)
    (hx : x 0 ∈ Binary32) (hy : y 0 ∈ Binary32) (hd : InDomain M.dim M.periods x y) :
    if M.dim = 2 then
      (x 0 ≤ y 0 → Real.sqrt (M.distSq x y) + M.margin eps x y ≤ y 0 - x 0 + eps → (M.causality32 A eps kind x y).1 = true) ∧
      ((M.causality32 A eps kind x y).1 = true → x 0 ≤ y 0 ∧ Real.sqrt (M.distSq x y) ≤ y 0 - x 0 + eps + M.margin eps x y)
    else
      (x 0 ≤ y 0 → M.distSq x y + M.margin eps x y ≤ (y 0 - x 0) ^ 2 + eps → (M.causality32 A eps kind x y).1 = true) ∧
      ((M.causality32 A eps kind x y).1 = true → x 0 ≤ y 0 ∧ M.distSq x y ≤ (y 0 - x 0) ^ 2 + eps + M.margin eps x y) := by
  have htime : (M.causality32 A eps kind x y).1 = true → x 0 ≤ y 0 := (C119_directions hA.r32 eps kind M x y hx hy).2.2.1
  have hu := u32_pos
  have hw := w32_pos
  -- the two tests
  have two : M.dim = 2 → ∀ z v e : ℝ, ∀ wd, 0 ≤ v → v ^ 2 = M.distSq x y → v ≤ M.sizeAt x y 1 → |z - v| ≤ 8 * u32 * (M.sizeAt x y 1 + w32) → |e - eps| ≤ u32 * (eps + w32) →
      ((M.causality32 A eps kind x y).1 = true ↔ 0 ≤ A.r32 (y 0 - x 0) ∧ A.rnd wd (|z| - e) ≤ |A.r32 (y 0 - x 0)|) →
      (x 0 ≤ y 0 → Real.sqrt (M.distSq x y) + M.margin eps x y ≤ y 0 - x 0 + eps → (M.causality32 A eps kind x y).1 = true) ∧
      ((M.causality32 A eps kind x y).1 = true → x 0 ≤ y 0 ∧ Real.sqrt (M.distSq x y) ≤ y 0 - x 0 + eps + M.margin eps x y) := by
    intro h2 z v e wd hv hv2 hvb hz he hc
    obtain ⟨c1, c2⟩ := compare32_2D hA.err32 (hA.errT wd) (t := y 0 - x 0) heps he hv hvb hz
    have hm : M.margin eps x y = 20 * u32 * (M.sizeAt x y 1 + eps + w32) := by
      unfold FlatSpacetime.margin u32 w32; rw [if_pos h2]; ring
    rw [← hv2, Real.sqrt_sq hv, hm, hc]
    refine ⟨fun h0 h => ⟨hA.err32.nonneg _ (by linarith), c1 ?_⟩, fun h => ⟨htime (hc.2 h), ?_⟩⟩
    · rw [abs_of_nonneg (by linarith)]; exact h
    · have := c2 h.2
      rwa [abs_of_nonneg (by linarith [htime (hc.2 h)])] at this
  have more : 3 ≤ M.dim → ∀ S e : ℝ, ∀ wd, |S - M.distSq x y| ≤ (4 * M.dim + 28) * u32 * (M.sizeSq x y + M.dim * w32) → |e - eps| ≤ u32 * (eps + w32) →
      ((M.causality32 A eps kind x y).1 = true ↔ 0 ≤ A.r32 (y 0 - x 0) ∧ A.rnd wd (S - e) ≤ A.r32 (A.r32 (y 0 - x 0) ^ 2)) → M.distSq x y ≤ M.sizeSq x y →
      (x 0 ≤ y 0 → M.distSq x y + M.margin eps x y ≤ (y 0 - x 0) ^ 2 + eps → (M.causality32 A eps kind x y).1 = true) ∧
      ((M.causality32 A eps kind x y).1 = true → x 0 ≤ y 0 ∧ M.distSq x y ≤ (y 0 - x 0) ^ 2 + eps + M.margin eps x y) := by
    intro h3 S e wd hS he hc hD
    obtain ⟨c1, c2⟩ := compare32 hA.err32 (hA.errT wd) (t := y 0 - x 0) (n := M.dim) (by exact_mod_cast h3) (by exact_mod_cast hd2) heps he (M.distSq_nonneg x y)
      (by linarith : M.distSq x y + M.dim * w32 ≤ M.sizeSq x y + M.dim * w32) hS
    have hm : M.margin eps x y = (4 * M.dim + 40) * u32 * (M.sizeSq x y + M.dim * w32 + eps) := by
      unfold FlatSpacetime.margin u32 w32; rw [if_neg (by omega)]; ring
    rw [hm, hc]
    exact ⟨fun h0 h => ⟨hA.err32.nonneg _ (by linarith), c1 h⟩, fun h => ⟨htime (hc.2 h), c2 h.2⟩⟩
  have hsz : ∀ i, 1 ≤ i → i < M.dim → M.sizeAt x y i = if M.periods (i - 1) > 0 ∧ |y i - x i| > M.periods (i - 1) / 3 then M.periods (i - 1) else |y i - x i| := fun i _ _ => rfl
  have hdist : M.distSq x y = ((List.range' 1 (M.dim - 1)).map fun i => periodicDelta (M.periods (i - 1)) (y i - x i) ^ 2).sum := by
    unfold FlatSpacetime.distSq; rw [sum_Ico_list]
  have hsize : M.sizeSq x y = ((List.range' 1 (M.dim - 1)).map fun i => M.sizeAt x y i ^ 2).sum := by
    unfold FlatSpacetime.sizeSq; rw [sum_Ico_list]
  have hmem : ∀ i ∈ List.range' 1 (M.dim - 1), 1 ≤ i ∧ i < M.dim := by
    intro i hi
    rw [List.mem_range'_1] at hi; omega
  have hL : (List.range' 1 (M.dim - 1)).length = M.dim - 1 := List.length_range'
  have hdr : ((M.dim - 1 : ℕ) : ℝ) = M.dim - 1 := by rw [Nat.cast_sub (by omega)]; norm_num
  have hde := fun i (hi : i ∈ List.range' 1 (M.dim - 1)) => hA.delta_err kind M.periods i x y (hd i (hmem i hi).1 (hmem i hi).2)
  have hle : M.distSq x y ≤ M.sizeSq x y := by
    rw [hdist, hsize]
    exact list_sum_le _ fun i hi => pow_le_pow_left₀ (hde i hi).2.1 (hde i hi).2.2.1 2
  by_cases hd1' : M.dim = 1
  · rw [if_neg (by omega)]
    have hd0 : M.distSq x y = 0 := by unfold FlatSpacetime.distSq; rw [hd1']; simp
    have hform : (M.causality32 A eps kind x y).1 = true ↔ 0 ≤ A.r32 (y 0 - x 0) := by
      unfold FlatSpacetime.causality32
      rw [if_pos hd1']
      simp only [causalityBaseFl, test, decide_eq_true_eq, ge_iff_le]
    refine ⟨fun h _ => hform.2 (hA.err32.nonneg _ (by linarith)), fun h => ⟨htime h, ?_⟩⟩
    have hm : 0 ≤ M.margin eps x y := by
      unfold FlatSpacetime.margin
      rw [if_neg (by omega)]
      have : 0 ≤ M.sizeSq x y := Finset.sum_nonneg fun i _ => sq_nonneg _
      positivity
    rw [hd0]
    positivity
  by_cases hp : M.isPeriodic = true
  · have hper : (fun i => (M.period.getD []).getD i 0) = M.periods := by
      funext i; unfold FlatSpacetime.periods; rw [if_pos hp]
    by_cases h2 : M.dim = 2
    · rw [if_pos h2]
      have h1mem : 1 ∈ List.range' 1 (M.dim - 1) := by rw [h2]; simp
      obtain ⟨k1, k2, k3, -⟩ := hde 1 h1mem
      obtain ⟨wd, e, he, hform⟩ := hA.subEps_form (.np ⟨|(A.delta kind M.periods 1 x y).val|, (A.delta kind M.periods 1 x y).wide⟩) |(A.delta kind M.periods 1 x y).val| eps heps
        (fun c h => by simp at h) (fun a h => by simp only [PyNum.np.injEq] at h; rw [← h])
      refine two h2 (A.delta kind M.periods 1 x y).val _ e wd k2 ?_ k3 k1 he ?_
      · unfold FlatSpacetime.distSq; rw [h2]; simp
      · unfold FlatSpacetime.causality32
        rw [if_neg hd1', if_neg (by simp [hp])]
        rw [if_pos h2, hper]
        simp only [NpArith.causalityFlat2DPeriodic, test, Bool.and_eq_true, decide_eq_true_eq, ge_iff_le]
        rw [hform]
    · rw [if_neg h2]
      have hd3 : 3 ≤ M.dim := by omega
      have hsq := fun i (hi : i ∈ List.range' 1 (M.dim - 1)) => hA.square_err kind M.periods i x y (hd i (hmem i hi).1 (hmem i hi).2)
      set f := fun i => A.square (A.delta kind M.periods i x y) with hf
      set L := List.range' 1 (M.dim - 1)
      set R := M.sizeSq x y + M.dim * w32 with hR
      set Q := (L.map fun i => (f i).val).sum with hQ
      have hdim : (3 : ℝ) ≤ M.dim := by exact_mod_cast hd3
      have hdim2 : (M.dim : ℝ) ≤ 100000 := by exact_mod_cast hd2
      have hQ0 : 0 ≤ Q := List.sum_nonneg fun a ha => by
        obtain ⟨j, hj, rfl⟩ := List.mem_map.1 ha; exact (hsq j hj).1
      have key : ∀ L : List ℕ, (∀ i ∈ L, |(f i).val - periodicDelta (M.periods (i - 1)) (y i - x i) ^ 2| ≤ 32 * u32 * (M.sizeAt x y i ^ 2 + w32)) →
          |(L.map fun i => (f i).val).sum - (L.map fun i => periodicDelta (M.periods (i - 1)) (y i - x i) ^ 2).sum| ≤
            32 * u32 * ((L.map fun i => M.sizeAt x y i ^ 2).sum + L.length * w32) := by
        intro L
        induction L with
        | nil => intro _; simp
        | cons i L ih =>
          intro h
          have a1 := ih (fun j hj => h j (List.mem_cons_of_mem _ hj))
          have b2 := h i List.mem_cons_self
          simp only [List.map_cons, List.sum_cons, List.length_cons]
          have : (f i).val + (L.map fun i => (f i).val).sum - (periodicDelta (M.periods (i - 1)) (y i - x i) ^ 2 +
            (L.map fun i => periodicDelta (M.periods (i - 1)) (y i - x i) ^ 2).sum) = ((f i).val - periodicDelta (M.periods (i - 1)) (y i - x i) ^ 2) +
            ((L.map fun i => (f i).val).sum - (L.map fun i => periodicDelta (M.periods (i - 1)) (y i - x i) ^ 2).sum) := by ring
          rw [this]
          refine (abs_add_le _ _).trans ?_
          push_cast
          linarith
      have hQd := key L (fun i hi => (hsq i hi).2.1)
      rw [← hQ, ← hdist, ← hsize, hL, hdr] at hQd
      have hsz0 : 0 ≤ M.sizeSq x y := Finset.sum_nonneg fun i _ => sq_nonneg _
      have hus : 400040 * u32 ≤ 1 / 6 := by unfold u32; norm_num
      have hdw : 3 * w32 ≤ M.dim * w32 := mul_le_mul_of_nonneg_right hdim hw.le
      have hQd2 : |Q - M.distSq x y| ≤ 32 * u32 * R := hQd.trans (mul_le_mul_of_nonneg_left (by rw [hR]; linarith) (by linarith))
      have hQR : Q + w32 ≤ 2 * R := by
        have := (abs_le.1 hQd).2
        have : 32 * u32 * (M.sizeSq x y + ((M.dim : ℝ) - 1) * w32) ≤ 1 * (M.sizeSq x y + ((M.dim : ℝ) - 1) * w32) := mul_le_mul_of_nonneg_right (by linarith) (by linarith)
        linarith
      have hfold := hA.fold_err f Q hQ0 L (.py 0) 0 0 (fun i hi => (hsq i hi).1) le_rfl (by rw [zero_add])
        (by
          rw [zero_add, hL, hdr]
          have : ((M.dim : ℝ) - 1) * (2 * u32) ≤ 100000 * (2 * u32) := mul_le_mul_of_nonneg_right (by linarith) (by linarith)
          linarith) (fun w => by simp [NpArith.valueIn, hA.rnd_zero])
      simp only [zero_add, hL, hdr] at hfold
      set s := L.foldl (fun s i => PyNum.np (A.addTo s (f i))) (.py 0) with hs
      have hnp : ∃ a, s = .np a := by
        have hLe : L ≠ [] := by
          intro h
          rw [h] at hL
          simp at hL; omega
        rw [hs, ← List.dropLast_append_getLast hLe, List.foldl_append]
        exact ⟨_, rfl⟩
      obtain ⟨a, ha⟩ := hnp
      obtain ⟨wd, e, he, hform⟩ := hA.subEps_form s a.val eps heps (fun c h => by rw [ha] at h; simp at h) (fun a' h => by rw [ha] at h; simp only [PyNum.np.injEq] at h; rw [h])
      refine more hd3 a.val e wd ?_ he ?_ hle
      · have h1 := hfold true
        rw [ha] at h1
        simp only [NpArith.valueIn] at h1
        rw [← hQ] at h1
        have h2 := abs_sub_le a.val Q (M.distSq x y)
        have h3 : ((M.dim : ℝ) - 1) * (2 * u32 * (Q + w32)) ≤ ((M.dim : ℝ) - 1) * (2 * u32 * (2 * R)) :=
          mul_le_mul_of_nonneg_left (mul_le_mul_of_nonneg_left hQR (by linarith)) (by linarith)
        linarith
      · unfold FlatSpacetime.causality32
        rw [if_neg hd1', if_neg (by simp [hp])]
        rw [if_neg h2, hper]
        simp only [NpArith.causalityFlatPeriodic, test, Bool.and_eq_true, decide_eq_true_eq, ge_iff_le]
        rw [← hform]
  · have hp' : M.isPeriodic = false := by simpa using hp
    have hper : ∀ i, M.periods i = 0 := fun i => by unfold FlatSpacetime.periods; rw [if_neg hp]
    have hpd : ∀ d : ℝ, periodicDelta 0 d = |d| := fun d => by unfold periodicDelta; rw [if_neg (lt_irrefl _)]
    have hsz : ∀ i, M.sizeAt x y i = |y i - x i| := fun i => by unfold FlatSpacetime.sizeAt; rw [hper, if_neg (fun h => lt_irrefl _ h.1)]
    have he : |A.rnd (!A.np2) eps - eps| ≤ u32 * (eps + w32) := by
      have := (hA.errT (!A.np2)).err eps
      rwa [abs_of_nonneg heps] at this
    by_cases h2 : M.dim = 2
    · rw [if_pos h2]
      refine two h2 |A.r32 (y 1 - x 1)| |y 1 - x 1| (A.rnd (!A.np2) eps) (!A.np2) (abs_nonneg _) ?_ (hsz 1).ge ?_ he ?_
      · unfold FlatSpacetime.distSq; rw [h2]; simp [hper, hpd]
      · rw [hsz]
        refine ((abs_abs_sub_abs_le _ _).trans (hA.err32.err _)).trans ?_
        have := abs_nonneg (y 1 - x 1)
        have : 0 ≤ u32 * (|y 1 - x 1| + w32) := by positivity
        linarith
      · unfold FlatSpacetime.causality32
        rw [if_neg hd1', if_pos (by simp [hp'])]
        unfold causalityMinkMix
        rw [if_neg hd1', if_pos h2]
        simp only [causalityFlat2DMix, test, Bool.and_eq_true, decide_eq_true_eq, ge_iff_le, abs_abs]
    · rw [if_neg h2]
      have hd3 : 3 ≤ M.dim := by omega
      have hdim : (3 : ℝ) ≤ M.dim := by exact_mod_cast hd3
      have hdim2 : (M.dim : ℝ) ≤ 100000 := by exact_mod_cast hd2
      have hdd : M.distSq x y = ((List.range' 1 (M.dim - 1)).map fun i => (y i - x i) ^ 2).sum := by
        rw [hdist]; simp only [hper, hpd, sq_abs]
      have hss : M.sizeSq x y = M.distSq x y := by
        rw [hsize, hdd]; simp only [hsz, sq_abs]
      refine more hd3 (flSum (A.rnd (!A.np2)) ((List.range' 1 (M.dim - 1)).map fun i => A.r32 (A.r32 (y i - x i) ^ 2))) (A.rnd (!A.np2) eps) (!A.np2) ?_ he ?_ hle
      · have := (hA.errT (!A.np2)).sum_near hu u32_small hw w32_le (List.range' 1 (M.dim - 1)) (fun i => A.r32 (A.r32 (y i - x i) ^ 2)) (fun i => (y i - x i) ^ 2)
          (fun i _ => hA.err32.nonneg _ (sq_nonneg _)) (fun i _ => sq_nonneg _) (fun i _ => hA.err32.sq_err hu u32_small hw w32_le (y i - x i)) (by
            rw [hL, hdr]
            have : ((M.dim : ℝ) - 1) * (2 * u32) ≤ 100000 * (2 * u32) := mul_le_mul_of_nonneg_right (by linarith) (by linarith)
            have hus : 400040 * u32 ≤ 1 / 6 := by unfold u32; norm_num
            linarith)
        rw [hL, hdr, ← hdd] at this
        rw [hss]
        refine this.trans ?_
        have e : (4 * ((M.dim : ℝ) - 1) + 6) * u32 * (M.distSq x y + ((M.dim : ℝ) - 1 + 1) * w32) = (4 * M.dim + 2) * (u32 * (M.distSq x y + M.dim * w32)) := by ring
        have e2 : (4 * (M.dim : ℝ) + 28) * u32 * (M.distSq x y + M.dim * w32) = (4 * M.dim + 28) * (u32 * (M.distSq x y + M.dim * w32)) := by ring
        rw [e, e2]
        have h0 := M.distSq_nonneg x y
        exact mul_le_mul_of_nonneg_right (by linarith) (by positivity)
      · unfold FlatSpacetime.causality32
        rw [if_neg hd1', if_pos (by simp [hp'])]
        unfold causalityMinkMix
        rw [if_neg hd1', if_neg h2]
        simp only [causalityFlatMix, test, Bool.and_eq_true, decide_eq_true_eq, ge_iff_le]

end Causets
