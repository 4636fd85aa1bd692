import Verif.Props.EmbPermutation

/-! # C43 — the tolerance and the periods: where the flat causality function is no order; constructors (C67) -/

namespace Causets

open Heap

/-- the point with time `t` and first space coordinate `a` -/
def lineP (t a : ℝ) : Point := fun i => if i = 0 then t else if i = 1 then a else 0

theorem spaceSq_line (dim : ℕ) (hd : 2 ≤ dim) (t a t' a' : ℝ) : spaceSq dim (lineP t a) (lineP t' a') = (a' - a) ^ 2 := by
  unfold spaceSq
  rw [Finset.sum_eq_single 1]
  · simp [lineP]
  · intro i hi hi1
    rw [Finset.mem_Ico] at hi
    have : i ≠ 0 := by omega
    simp [lineP, this, hi1]
  · intro h; exact absurd (Finset.mem_Ico.2 ⟨le_refl _, by omega⟩) h

/-- **C43, refuted with tolerance.** In Minkowski spacetime of every dimension from 2 on, for every positive tolerance, there are points
`x`, `y`, `z` at increasing times such that `x` precedes `y` and `y` precedes `z`, but `x` and `z` are reported as unrelated. -/
theorem C43_tolerance_refuted (dim : ℕ) (hd : 2 ≤ dim) (eps : ℝ) (he : 0 < eps) :
    let c := (⟨dim, false, none⟩ : FlatSpacetime).causality eps
    ∃ x y z : Point, x 0 < y 0 ∧ y 0 < z 0 ∧ c x y = (true, false) ∧ c y z = (true, false) ∧ c x z = (false, false) ∧ c y x = (false, true) ∧
      c z y = (false, true) ∧ c z x = (false, false) := by
  intro c
  by_cases h2 : dim = 2
  · have hc : ∀ x y, c x y = causalityFlat2D eps x y := fun x y => by
      simp only [c, FlatSpacetime.causality, h2]; simp
    refine ⟨lineP 0 0, lineP (eps / 4) eps, lineP (eps / 2) (2 * eps), ?_, ?_, ?_⟩
    · simp [lineP, he]
    · simp only [lineP, if_true]; linarith
    · have a1 : |eps / 4| = eps / 4 := abs_of_pos (by linarith)
      have a2 : |eps| = eps := abs_of_pos he
      have a3 : |eps / 2| = eps / 2 := abs_of_pos (by linarith)
      have a4 : |2 * eps| = 2 * eps := abs_of_pos (by linarith)
      have b1 : eps / 2 - eps / 4 = eps / 4 := by ring
      have b2 : 2 * eps - eps = eps := by ring
      have b3 : eps / 4 - eps / 2 = -(eps / 4) := by ring
      have b4 : eps - 2 * eps = -eps := by ring
      have p1 : 0 ≤ eps / 4 := by linarith
      have p2 : ¬ eps / 4 < 0 := by linarith
      have p3 : 0 ≤ eps / 2 := by linarith
      have p4 : ¬ eps / 2 < 0 := by linarith
      have p5 : ¬ eps ≤ eps / 2 := by linarith
      have p6 : ¬ (0 ≤ -(eps / 4)) := by linarith
      have p7 : -(eps / 4) < 0 := by linarith
      have p8 : ¬ (0 ≤ -(eps / 2)) := by linarith
      have p9 : -(eps / 2) < 0 := by linarith
      have q5 : ¬ (eps ≤ 0) := by linarith
      refine ⟨?_, ?_, ?_, ?_, ?_, ?_⟩ <;> rw [hc] <;>
        simp [causalityFlat2D, lineP, test, a1, a2, a3, a4, b1, b2, b3, b4, p1, p2, p3, p4, p5, p6, p7, p8, p9, he, q5, -sub_nonneg]
  · have hc : ∀ x y, c x y = causalityFlat eps dim x y := fun x y => by
      have : dim ≠ 1 := by omega
      simp only [c, FlatSpacetime.causality, h2, this]; simp
    set s := Real.sqrt eps with hs
    have hs0 : 0 < s := Real.sqrt_pos.2 he
    have hs2 : s ^ 2 = eps := Real.sq_sqrt he.le
    have key : ∀ k l : ℝ, c (lineP (k * (s / 4)) (k * s)) (lineP (l * (s / 4)) (l * s)) =
        (test (l ≥ k) && test ((l - k) ^ 2 / 16 ≥ (l - k) ^ 2 - 1), test (l < k) && test ((l - k) ^ 2 / 16 ≥ (l - k) ^ 2 - 1)) := by
      intro k l
      rw [hc]
      unfold causalityFlat
      rw [spaceSq_line dim hd]
      have e1 : lineP (l * (s / 4)) (l * s) 0 - lineP (k * (s / 4)) (k * s) 0 = (l - k) * (s / 4) := by simp [lineP]; ring
      rw [e1]
      have f1 : ((l - k) * (s / 4) ≥ 0) = (l ≥ k) := by
        apply propext
        constructor
        · intro h; by_contra h'; have : l - k < 0 := by push Not at h'; linarith
          nlinarith
        · intro h; apply mul_nonneg <;> linarith
      have f2 : ((l - k) * (s / 4) < 0) = (l < k) := by
        apply propext
        constructor
        · intro h; by_contra h'; push Not at h'
          have : 0 ≤ (l - k) * (s / 4) := by apply mul_nonneg <;> linarith
          linarith
        · intro h; have : l - k < 0 := by linarith
          nlinarith
      have f3 : (((l - k) * (s / 4)) ^ 2 ≥ (l * s - k * s) ^ 2 - eps) = ((l - k) ^ 2 / 16 ≥ (l - k) ^ 2 - 1) := by
        apply propext
        have g1 : ((l - k) * (s / 4)) ^ 2 = (l - k) ^ 2 / 16 * eps := by rw [← hs2]; ring
        have g2 : (l * s - k * s) ^ 2 - eps = ((l - k) ^ 2 - 1) * eps := by rw [← hs2]; ring
        rw [g1, g2, ge_iff_le, ge_iff_le, mul_le_mul_iff_left₀ he]
      simp only [f1, f2, f3]
    refine ⟨lineP (0 * (s / 4)) (0 * s), lineP (1 * (s / 4)) (1 * s), lineP (2 * (s / 4)) (2 * s), ?_, ?_, ?_, ?_, ?_, ?_, ?_, ?_⟩
    · simp [lineP, hs0]
    · simp only [lineP, if_true]; linarith
    all_goals rw [key]; norm_num [test]

/-- **C43, refuted with tolerance, observable effect.** With these points, `create` on a new causet makes events with `a < b` and
`b < c` but not `a < c`, for every iteration order. -/
theorem C43_create_refuted (dim : ℕ) (hd : 2 ≤ dim) (it : Iter) :
    ∃ x y z : Point,
      let r := create ((⟨dim, false, none⟩ : FlatSpacetime).causality causalityEps) it ∅ [x, y, z] none true
        { heap := Heap.empty, crd := fun _ => none }
      r.1 = {0, 1, 2} ∧ r.2.2.2.heap.Lt 0 1 ∧ r.2.2.2.heap.Lt 1 2 ∧ ¬ r.2.2.2.heap.Lt 0 2 := by
  obtain ⟨x, y, z, -, -, h1, h2, h3, h4, h5, h6⟩ := C43_tolerance_refuted dim hd causalityEps (by unfold causalityEps; norm_num)
  set c := (⟨dim, false, none⟩ : FlatSpacetime).causality causalityEps
  refine ⟨x, y, z, ?_⟩
  intro r
  set w0 : World Point := { heap := Heap.empty, crd := fun _ => none } with hw0
  have hv : w0.heap.Valid ∧ w0.heap.LinksExact := by
    have := C42_history c (∅ : Set Point) ⟨by simp, by simp⟩ it [] (by simp)
    exact ⟨this.1, this.2.1⟩
  have hst := create_stage c it ∅ [x, y, z] none w0 hv.1 hv.2 (by simp) (by intro x hx; simp at hx)
  obtain ⟨w1, e1, -, -, -, -, -, -, g3, -⟩ := hst
  have hset : (∅ : Finset ℕ) ∪ (List.range' w0.heap.next [x, y, z].length).toFinset = {0, 1, 2} := by
    show (∅ : Finset ℕ) ∪ (List.range' 0 3).toFinset = {0, 1, 2}
    decide
  rw [hset] at e1
  let pos : EId → Point := fun e => if e = 0 then x else if e = 1 then y else z
  have hpos : ∀ e ∈ ({0, 1, 2} : Finset ℕ), w1.crd e = some (pos e) := by
    intro e he
    have g0 := g3 0 (by simp)
    have g1 := g3 1 (by simp)
    have g2 := g3 2 (by simp)
    have hn : w0.heap.next = 0 := rfl
    rw [hn] at g0 g1 g2
    simp only [Finset.mem_insert, Finset.mem_singleton] at he
    rcases he with rfl | rfl | rfl
    · simpa [pos] using g0
    · simpa [pos] using g1
    · simpa [pos] using g2
  obtain ⟨L, k1, k2, k3, -⟩ := C42_relate c it {0, 1, 2} true w1 pos hpos
  have hr : r = _ := e1
  rw [hr]
  refine ⟨rfl, ?_, ?_, ?_⟩ <;> dsimp only
  · rw [k3 0 1 (by simp)]
    rcases before_total k1 (a := 0) (b := 1) ((k2 _).2 (by simp)) ((k2 _).2 (by simp)) (by omega) with hb | hb
    · exact Or.inl ⟨hb, by simp [pos, h1]⟩
    · exact Or.inr ⟨hb, by simp [pos, h4]⟩
  · rw [k3 1 2 (by simp)]
    rcases before_total k1 (a := 1) (b := 2) ((k2 _).2 (by simp)) ((k2 _).2 (by simp)) (by omega) with hb | hb
    · exact Or.inl ⟨hb, by simp [pos, h2]⟩
    · exact Or.inr ⟨hb, by simp [pos, h5]⟩
  · rw [k3 0 2 (by simp)]
    rintro (⟨-, hb⟩ | ⟨-, hb⟩)
    · simp [pos, h3] at hb
    · simp [pos, h6] at hb

/-- **C43, refuted outside the fundamental domain.** With period 1 in 2 dimensions and no tolerance: the points with space coordinates
0, 1, 2 (the same point of the cylinder) at increasing times; the first two are related, the last two too, but not the first and the last. -/
theorem C43_period_refuted :
    let c := (⟨2, true, some [1]⟩ : FlatSpacetime).causality 0
    c (lineP 0 0) (lineP (1 / 4) 1) = (true, false) ∧ c (lineP (1 / 4) 1) (lineP (1 / 2) 2) = (true, false) ∧
      c (lineP 0 0) (lineP (1 / 2) 2) = (false, false) ∧ TorusLe 2 (fun _ => 1) (lineP 0 0) (lineP (1 / 2) 2) := by
  intro c
  have hc : ∀ x y, c x y = causalityFlat2DPeriodic 0 (fun i => ([1] : List ℝ).getD i 0) x y := fun x y => by
    simp only [c, FlatSpacetime.causality]; simp
  refine ⟨?_, ?_, ?_, fun _ => -2, ?_⟩
  · rw [hc]; norm_num [causalityFlat2DPeriodic, periodicDelta, lineP, test]
  · rw [hc]; norm_num [causalityFlat2DPeriodic, periodicDelta, lineP, test]
  · rw [hc]; norm_num [causalityFlat2DPeriodic, periodicDelta, lineP, test]
  · rw [minkLe_iff]
    norm_num [image, lineP, spaceSq]

/-! ## Constructor -/

/-- the period requested for the spatial direction `i` (0-indexed) -/
def PeriodArg.at (i : ℕ) : PeriodArg → ℝ
  | .float p => p
  | .tuple ps => ps.getD i 0
  | .other => 0

/-- **C67, constructor.** `FlatSpacetime(dim, period)` raises ValueError exactly if the dimension is below 1, or the period is neither a float
nor a tuple with one entry per spatial direction; otherwise the spacetime has this dimension, and is periodic exactly in the
directions with a positive period, with that period. -/
theorem C67_flat_init (dim : ℤ) (period : PeriodArg) :
    (FlatSpacetime.init dim period = .error .valueError ↔
      dim < 1 ∨ period = .other ∨ ∃ ps, period = .tuple ps ∧ (ps.length : ℤ) ≠ dim - 1) ∧
    ((∃ M, FlatSpacetime.init dim period = .ok M) ∨ FlatSpacetime.init dim period = .error .valueError) ∧
    (∀ M, FlatSpacetime.init dim period = .ok M → (M.dim : ℤ) = dim ∧
      ∀ i : ℕ, (i : ℤ) < dim - 1 → (0 < period.at i → M.periods i = period.at i) ∧ (¬ 0 < period.at i → ¬ 0 < M.periods i)) := by
  unfold FlatSpacetime.init
  by_cases hd : dim < 1
  · simp [hd]
  · simp only [hd, if_false, false_or]
    cases period with
    | float p =>
      dsimp only
      by_cases hp : p > 0
      · simp only [hp, if_true]
        refine ⟨by simp, Or.inl ⟨_, rfl⟩, ?_⟩
        intro M hM
        simp only [Except.ok.injEq] at hM
        subst hM
        refine ⟨by simp; omega, fun i hi => ?_⟩
        simp only [PeriodArg.at, FlatSpacetime.periods, if_true, Option.getD_some]
        have : i < dim.toNat - 1 := by omega
        refine ⟨fun _ => ?_, fun h => absurd hp h⟩
        rw [List.getD_eq_getElem?_getD, List.getElem?_eq_getElem (by simpa using this)]
        simp
      · simp only [hp, if_false]
        refine ⟨by simp, Or.inl ⟨_, rfl⟩, ?_⟩
        intro M hM
        simp only [Except.ok.injEq] at hM
        subst hM
        refine ⟨by simp; omega, fun i hi => ?_⟩
        simp only [PeriodArg.at, FlatSpacetime.periods]
        exact ⟨fun h => absurd h hp, by simp⟩
    | tuple ps =>
      dsimp only
      by_cases hl : (ps.length : ℤ) = dim - 1
      · simp only [hl, if_true]
        by_cases hp : ∃ p ∈ ps, p > 0
        · simp only [hp, if_true]
          refine ⟨by simp [hl], Or.inl ⟨_, rfl⟩, ?_⟩
          intro M hM
          simp only [Except.ok.injEq] at hM
          subst hM
          refine ⟨by simp; omega, fun i hi => ?_⟩
          simp [PeriodArg.at, FlatSpacetime.periods]
        · simp only [hp, if_false]
          refine ⟨by simp [hl], Or.inl ⟨_, rfl⟩, ?_⟩
          intro M hM
          simp only [Except.ok.injEq] at hM
          subst hM
          refine ⟨by simp; omega, fun i hi => ?_⟩
          simp only [PeriodArg.at, FlatSpacetime.periods]
          refine ⟨fun h => absurd ⟨ps.getD i 0, ?_, h⟩ hp, by simp⟩
          rw [List.getD_eq_getElem?_getD, List.getElem?_eq_getElem (by omega)]
          exact List.getElem_mem _
      · simp [hl]
    | other => simp

/-- **C67, refuted.** `repr` of every flat spacetime that is not periodic raises KeyError. -/
theorem C67_repr_refuted (dim : ℤ) (hd : 1 ≤ dim) : ∃ M, FlatSpacetime.init dim (.float 0) = .ok M ∧ M.repr = .error .keyError := by
  refine ⟨⟨dim.toNat, false, none⟩, ?_, rfl⟩
  unfold FlatSpacetime.init
  simp only [lt_irrefl, gt_iff_lt, if_false]
  rw [if_neg (by omega)]

/-- **C67, the part that holds.** `repr` of a periodic flat spacetime contains dimension and periods. -/
theorem C67_repr_partial (dim : ℤ) (period : PeriodArg) (M : FlatSpacetime) (h : FlatSpacetime.init dim period = .ok M)
    (hp : M.isPeriodic = true) : ∃ ps, M.repr = .ok (M.dim, ps) ∧ ∀ i, M.periods i = ps.getD i 0 := by
  have : ∃ ps, M.period = some ps := by
    unfold FlatSpacetime.init at h
    split at h
    · simp at h
    · cases period with
      | float p =>
        dsimp only at h
        split at h
        · simp only [Except.ok.injEq] at h; subst h; exact ⟨_, rfl⟩
        · simp only [Except.ok.injEq] at h; subst h; simp at hp
      | tuple ps =>
        dsimp only at h
        split at h
        · split at h
          · simp only [Except.ok.injEq] at h; subst h; exact ⟨_, rfl⟩
          · simp only [Except.ok.injEq] at h; subst h; simp at hp
        · simp at h
      | other => simp at h
  obtain ⟨ps, hps⟩ := this
  exact ⟨ps, by unfold FlatSpacetime.repr; rw [hps], fun i => by simp [FlatSpacetime.periods, hp, hps]⟩

end Causets
