import Verif.Model.Ieee
import Verif.Props.FloatCausality

/-! # C116 — causality of points with infinite, undefined or very large coordinates: flat spacetimes -/

namespace Causets

open NpReal

variable {rnd : ℝ → ℝ}

/-! ## specification -/

/-- the extended real number that a binary64 value stands for; `nan` stands for none -/
noncomputable def NpReal.val : NpReal → Option EReal
  | .nan => none
  | .ninf => some ⊥
  | .pinf => some ⊤
  | .fin r => some r

/-- the values of binary64 numbers: the finite ones are in `Binary64`, below `2^1024` -/
def NpReal.Is64 : NpReal → Prop
  | .fin r => r ∈ Binary64 ∧ |r| < 2 ^ 1024
  | _ => True

/-- the first number is at most the second one (so neither is `nan`) -/
def NpReal.Le (a b : NpReal) : Prop := ∃ s t : EReal, a.val = some s ∧ b.val = some t ∧ s ≤ t

/-- the first number is less than the second one (so neither is `nan`) -/
def NpReal.Lt (a b : NpReal) : Prop := ∃ s t : EReal, a.val = some s ∧ b.val = some t ∧ s < t

/-! ## arithmetic -/

theorem huge_pos : 0 < huge := by unfold huge; positivity


theorem cap_of_lt {z : ℝ} (h : |z| < huge) : cap z = fin z := by
  obtain ⟨h1, h2⟩ := abs_lt.1 h
  unfold cap
  rw [if_neg (by simp only [test, decide_eq_true_eq]; linarith), if_neg (by simp only [test, decide_eq_true_eq]; linarith)]

theorem cap_of_ge {z : ℝ} (h : huge ≤ z) : cap z = pinf := by
  unfold cap; rw [if_pos (by simpa only [test, decide_eq_true_eq] using h)]

theorem cap_of_le {z : ℝ} (h : z ≤ -huge) : cap z = ninf := by
  unfold cap
  have : (0 : ℝ) < huge := huge_pos
  rw [if_neg (by simp only [test, decide_eq_true_eq]; linarith), if_pos (by simpa only [test, decide_eq_true_eq] using h)]

theorem cap_cases (z : ℝ) : (huge ≤ z ∧ cap z = pinf) ∨ (z ≤ -huge ∧ cap z = ninf) ∨ (|z| < huge ∧ cap z = fin z) := by
  rcases le_or_gt (huge) z with h | h
  · exact .inl ⟨h, cap_of_ge h⟩
  · rcases le_or_gt z (-huge) with h' | h'
    · exact .inr (.inl ⟨h', cap_of_le h'⟩)
    · have : |z| < huge := abs_lt.2 ⟨h', h⟩
      exact .inr (.inr ⟨this, cap_of_lt this⟩)

theorem cap_ne_nan (z : ℝ) : cap z ≠ nan := by
  rcases cap_cases z with ⟨_, h⟩ | ⟨_, h⟩ | ⟨_, h⟩ <;> rw [h] <;> simp

theorem cap_neg (z : ℝ) : cap (-z) = (cap z).neg := by
  rcases cap_cases z with ⟨h, e⟩ | ⟨h, e⟩ | ⟨h, e⟩ <;> rw [e]
  · exact cap_of_le (by linarith)
  · exact cap_of_ge (by linarith)
  · exact cap_of_lt (by rwa [abs_neg])

theorem cap_nonneg {z : ℝ} (h : 0 ≤ z) : cap z = pinf ∨ cap z = fin z := by
  have : (0 : ℝ) < huge := huge_pos
  rcases cap_cases z with ⟨_, e⟩ | ⟨h', e⟩ | ⟨_, e⟩
  · exact .inl e
  · linarith
  · exact .inr e

theorem subF_comm (hr : IsRounding rnd) (a b : NpReal) : subF rnd a b = (subF rnd b a).neg := by
  cases a <;> cases b <;> try rfl
  simp only [subF]
  rw [hr.sub_comm, cap_neg]

@[simp] theorem subF_nan_left (b : NpReal) : subF rnd nan b = nan := by cases b <;> rfl
@[simp] theorem subF_nan_right (a : NpReal) : subF rnd a nan = nan := by cases a <;> rfl
@[simp] theorem addF_nan_left (b : NpReal) : addF rnd nan b = nan := by cases b <;> rfl
@[simp] theorem addF_nan_right (a : NpReal) : addF rnd a nan = nan := by cases a <;> rfl
@[simp] theorem ge_nan_right (a : NpReal) : a.ge nan = false := by cases a <;> rfl
@[simp] theorem ge_nan_left (a : NpReal) : NpReal.ge nan a = false := by cases a <;> rfl
@[simp] theorem lt_nan_right (a : NpReal) : a.lt nan = false := by cases a <;> rfl
@[simp] theorem lt_nan_left (a : NpReal) : NpReal.lt nan a = false := by cases a <;> rfl

theorem npAbs_neg (a : NpReal) : a.neg.abs = a.abs := by
  cases a <;> simp [neg, NpReal.abs]

theorem sqF_neg {sq : ℝ → ℝ} (h : ∀ z, sq (-z) = sq z) (a : NpReal) : sqF sq a.neg = sqF sq a := by
  cases a <;> simp [neg, sqF, h]

theorem sqF_round_neg (a : NpReal) : sqF (fun z => rnd (z ^ 2)) a.neg = sqF (fun z => rnd (z ^ 2)) a :=
  sqF_neg (fun z => by rw [neg_sq]) a

/-- the sign of the time difference is that of the order of the times, even with overflow -/
theorem subF_ge_zero (hr : IsRounding rnd) {a b : NpReal} (ha : a.Is64) (hb : b.Is64) (h : (subF rnd b a).ge (fin 0) = true) : a.Le b := by
  cases a <;> cases b <;> try (exfalso; simp [subF, NpReal.ge] at h; done)
  · exact ⟨_, _, rfl, rfl, bot_le⟩
  · exact ⟨_, _, rfl, rfl, bot_le⟩
  · exact ⟨_, _, rfl, rfl, le_top⟩
  rename_i r s
  refine ⟨_, _, rfl, rfl, ?_⟩
  rw [EReal.coe_le_coe_iff]
  simp only [subF] at h
  rcases cap_cases (rnd (s - r)) with ⟨h', e⟩ | ⟨h', e⟩ | ⟨h', e⟩ <;> rw [e] at h
  · exact (hr.sub_nonneg_iff ha.1 hb.1).1 (huge_pos.le.trans h')
  · simp [NpReal.ge] at h
  · simp only [NpReal.ge, test, decide_eq_true_eq] at h
    exact (hr.sub_nonneg_iff ha.1 hb.1).1 h

theorem subF_lt_zero (hr : IsRounding rnd) {a b : NpReal} (ha : a.Is64) (hb : b.Is64) (h : (subF rnd b a).lt (fin 0) = true) : b.Lt a := by
  cases a <;> cases b <;> try (exfalso; simp [subF, NpReal.lt] at h; done)
  · exact ⟨_, _, rfl, rfl, bot_lt_top⟩
  · exact ⟨_, _, rfl, rfl, EReal.coe_lt_top _⟩
  · exact ⟨_, _, rfl, rfl, EReal.bot_lt_coe _⟩
  rename_i r s
  refine ⟨_, _, rfl, rfl, ?_⟩
  rw [EReal.coe_lt_coe_iff]
  simp only [subF] at h
  have hp := huge_pos
  rcases cap_cases (rnd (s - r)) with ⟨h', e⟩ | ⟨h', e⟩ | ⟨h', e⟩ <;> rw [e] at h
  · simp [NpReal.lt] at h
  · by_contra hc
    have := (hr.sub_nonneg_iff ha.1 hb.1).2 (not_lt.1 hc)
    linarith
  · simp only [NpReal.lt, test, decide_eq_true_eq] at h
    by_contra hc
    have := (hr.sub_nonneg_iff ha.1 hb.1).2 (not_lt.1 hc)
    linarith

/-! ## directions -/

theorem spaceSqIeee_symm (hr : IsRounding rnd) (dim : ℕ) (x y : FPoint) : spaceSqIeee rnd dim y x = spaceSqIeee rnd dim x y := by
  unfold spaceSqIeee
  congr 1
  refine List.map_congr_left fun i _ => ?_
  rw [subF_comm hr (x i), sqF_round_neg]

theorem periodicDeltaIeee_symm (hr : IsRounding rnd) (p : ℝ) (a b : NpReal) : periodicDeltaIeee rnd p a b = periodicDeltaIeee rnd p b a := by
  unfold periodicDeltaIeee
  rw [subF_comm hr a b, npAbs_neg]

/-- all flat causality functions have this form -/
theorem flat_formIeee (hr : IsRounding rnd) (sq : ℝ → ℝ) (eps : ℝ) (M : FlatSpacetime) :
    ∃ causal : FPoint → FPoint → Bool, (∀ x y, causal x y = causal y x) ∧
      ∀ x y, M.causalityIeee rnd sq eps x y = ((subF rnd (y 0) (x 0)).ge (fin 0) && causal x y, (subF rnd (y 0) (x 0)).lt (fin 0) && causal x y) := by
  unfold FlatSpacetime.causalityIeee
  split
  · exact ⟨fun _ _ => true, fun _ _ => rfl, fun x y => by simp [causalityBaseIeee]⟩
  · split
    · split
      · refine ⟨fun x y => (subF rnd (y 0) (x 0)).abs.ge (subF rnd (subF rnd (y 1) (x 1)).abs (fin eps)), fun x y => ?_, fun x y => rfl⟩
        dsimp only
        rw [subF_comm hr (x 0), subF_comm hr (x 1), npAbs_neg, npAbs_neg]
      · refine ⟨fun x y => (sqF (fun a => rnd (a ^ 2)) (subF rnd (y 0) (x 0))).ge (subF rnd (spaceSqIeee rnd M.dim x y) (fin eps)), fun x y => ?_, fun x y => rfl⟩
        dsimp only
        rw [subF_comm hr (x 0), sqF_round_neg, spaceSqIeee_symm hr]
    · dsimp only
      split
      · refine ⟨fun x y => (subF rnd (y 0) (x 0)).abs.ge (subF rnd (periodicDeltaIeee rnd ((M.period.getD []).getD 0 0) (y 1) (x 1)).abs (fin eps)), fun x y => ?_, fun x y => rfl⟩
        dsimp only
        rw [subF_comm hr (x 0), npAbs_neg, periodicDeltaIeee_symm hr]
      · refine ⟨fun x y => (sqF (fun a => rnd (a ^ 2)) (subF rnd (y 0) (x 0))).ge (subF rnd (sumF rnd ((List.range' 1 (M.dim - 1)).map fun i =>
          sqF sq (periodicDeltaIeee rnd ((M.period.getD []).getD (i - 1) 0) (y i) (x i)))) (fin eps)), fun x y => ?_, fun x y => rfl⟩
        have e : ((List.range' 1 (M.dim - 1)).map fun i => sqF sq (periodicDeltaIeee rnd ((M.period.getD []).getD (i - 1) 0) (x i) (y i))) =
            (List.range' 1 (M.dim - 1)).map fun i => sqF sq (periodicDeltaIeee rnd ((M.period.getD []).getD (i - 1) 0) (y i) (x i)) :=
          List.map_congr_left fun i _ => by rw [periodicDeltaIeee_symm hr]
        dsimp only
        rw [subF_comm hr (x 0), sqF_round_neg, e]

theorem ge_lt_zero (d : NpReal) : ¬ (d.ge (fin 0) = true ∧ d.lt (fin 0) = true) := by
  cases d <;> simp [NpReal.ge, NpReal.lt, test]

theorem lt_zero_iff (d : NpReal) : d.lt (fin 0) = true ↔ d.neg.ge (fin 0) = true ∧ d.ge (fin 0) = false := by
  cases d <;> simp [NpReal.ge, NpReal.lt, test, neg]
  intro h; exact h.le

/-- **C116, directions.** In every flat spacetime, with rounding and overflow, for points with any binary64 coordinates (`inf` and `nan` included): never both directions; the second answer means
"the second point precedes the first, and not conversely"; the answers respect the order of the times. -/
theorem C116_directions (hr : IsRounding rnd) (sq : ℝ → ℝ) (eps : ℝ) (M : FlatSpacetime) (x y : FPoint) (hx : (x 0).Is64) (hy : (y 0).Is64) :
    let c := M.causalityIeee rnd sq eps
    ¬ ((c x y).1 = true ∧ (c x y).2 = true) ∧ ((c x y).2 = true ↔ (c y x).1 = true ∧ (c x y).1 = false) ∧
    ((c x y).1 = true → (x 0).Le (y 0)) ∧ ((c x y).2 = true → (y 0).Lt (x 0)) := by
  intro c
  obtain ⟨causal, hs, hf⟩ := flat_formIeee hr sq eps M
  simp only [c, hf x y, hf y x, Bool.and_eq_true, Bool.and_eq_false_iff]
  refine ⟨fun h => ge_lt_zero _ ⟨h.1.1, h.2.1⟩, ?_, fun h => subF_ge_zero hr hx hy h.1, fun h => subF_lt_zero hr hx hy h.1⟩
  rw [lt_zero_iff, ← subF_comm hr, hs y x]
  constructor
  · rintro ⟨⟨h1, h2⟩, h3⟩; exact ⟨⟨h1, h3⟩, .inl h2⟩
  · rintro ⟨⟨h1, h3⟩, h2⟩
    refine ⟨⟨h1, ?_⟩, h3⟩
    rcases h2 with h2 | h2
    · exact h2
    · rw [h3] at h2; exact absurd h2 (by decide)

/-! ## nan -/

theorem sumF_nan_start (l : List NpReal) : l.foldl (addF rnd) nan = nan := by
  induction l with
  | nil => rfl
  | cons a l ih => rw [List.foldl_cons, addF_nan_left, ih]

theorem foldl_nan {l : List NpReal} (h : nan ∈ l) (s : NpReal) : l.foldl (addF rnd) s = nan := by
  induction l generalizing s with
  | nil => simp at h
  | cons a l ih =>
    rw [List.foldl_cons]
    rcases List.mem_cons.1 h with h | h
    · rw [← h, addF_nan_right, sumF_nan_start]
    · exact ih h _

theorem sumF_nan {l : List NpReal} (h : nan ∈ l) : sumF rnd l = nan := foldl_nan h _

theorem spaceSqIeee_nan {dim i : ℕ} (h1 : 1 ≤ i) (h2 : i < dim) {x y : FPoint} (h : subF rnd (y i) (x i) = nan) : spaceSqIeee rnd dim x y = nan :=
  sumF_nan (List.mem_map.2 ⟨i, List.mem_range'_1.2 ⟨h1, by omega⟩, by rw [h]; rfl⟩)

theorem periodicDeltaIeee_nan (p : ℝ) {a b : NpReal} (h : subF rnd a b = nan) : periodicDeltaIeee rnd p a b = nan := by
  unfold periodicDeltaIeee
  rw [h]
  simp [NpReal.abs, NpReal.min]

/-- if the difference of some coordinate is `nan` there is no relation -/
theorem flatIeee_nan (sq : ℝ → ℝ) (eps : ℝ) (M : FlatSpacetime) {i : ℕ} (hi : i < M.dim) (x y : FPoint) (h : subF rnd (y i) (x i) = nan) :
    M.causalityIeee rnd sq eps x y = (false, false) := by
  unfold FlatSpacetime.causalityIeee
  split
  · rename_i h1
    obtain rfl : i = 0 := by omega
    simp [causalityBaseIeee, h]
  · split
    · split
      · rename_i h2
        obtain rfl | rfl : i = 0 ∨ i = 1 := by omega
        · simp [causalityFlat2DIeee, h]
        · simp [causalityFlat2DIeee, h, NpReal.abs]
      · rcases Nat.eq_zero_or_pos i with rfl | h0
        · simp [causalityFlatIeee, h]
        · simp [causalityFlatIeee, spaceSqIeee_nan h0 hi h]
    · dsimp only
      split
      · rename_i h2
        obtain rfl | rfl : i = 0 ∨ i = 1 := by omega
        · simp [causalityFlat2DPeriodicIeee, h]
        · simp [causalityFlat2DPeriodicIeee, periodicDeltaIeee_nan _ h, NpReal.abs]
      · rcases Nat.eq_zero_or_pos i with rfl | h0
        · simp [causalityFlatPeriodicIeee, h]
        · have : sumF rnd ((List.range' 1 (M.dim - 1)).map fun i => sqF sq (periodicDeltaIeee rnd ((M.period.getD []).getD (i - 1) 0) (y i) (x i))) = nan :=
            sumF_nan (List.mem_map.2 ⟨i, List.mem_range'_1.2 ⟨h0, by omega⟩, by rw [periodicDeltaIeee_nan _ h]; rfl⟩)
          unfold causalityFlatPeriodicIeee
          dsimp only
          rw [this]
          simp

/-- **C116, nan.** In every flat spacetime a point with a coordinate `nan` is related to no point; and so are two points with the same infinite coordinate. -/
theorem C116_nan (rnd sq : ℝ → ℝ) (eps : ℝ) (M : FlatSpacetime) {i : ℕ} (hi : i < M.dim) (x y : FPoint)
    (h : x i = nan ∨ y i = nan ∨ (x i = pinf ∧ y i = pinf) ∨ (x i = ninf ∧ y i = ninf)) : M.causalityIeee rnd sq eps x y = (false, false) := by
  refine flatIeee_nan sq eps M hi x y ?_
  rcases h with h | h | ⟨h, h'⟩ | ⟨h, h'⟩
  · rw [h, subF_nan_right]
  · rw [h, subF_nan_left]
  · rw [h, h']; rfl
  · rw [h, h']; rfl

end Causets
