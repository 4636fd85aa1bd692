import Verif.Props.Float32Round
import Verif.Props.FloatCausality

/-! # C115 — flat causality in single precision -/

namespace Causets

variable {rnd rndS : ℝ → ℝ}

/-- the model of C104 is the special case of one rounding -/
theorem causalityMinkMix_same (sq : ℝ → ℝ) (eps : ℝ) (dim : ℕ) (per : Option (List ℝ)) :
    FlatSpacetime.causalityFl rnd sq eps ⟨dim, false, per⟩ = causalityMinkMix rnd rnd eps dim := by
  unfold FlatSpacetime.causalityFl causalityMinkMix
  simp only [Bool.not_false, if_true]
  rfl

/-- all these causality functions have this form -/
theorem mink_formMix {F : Set ℝ} (hr : IsRoundingTo F rnd) (rndS : ℝ → ℝ) (eps : ℝ) (dim : ℕ) :
    ∃ causal : Point → Point → Prop, (∀ x y, causal x y → causal y x) ∧
      ∀ x y, causalityMinkMix rnd rndS eps dim x y = (test (rnd (y 0 - x 0) ≥ 0) && test (causal x y), test (rnd (y 0 - x 0) < 0) && test (causal x y)) := by
  unfold causalityMinkMix
  split
  · exact ⟨fun _ _ => True, fun _ _ => id, fun x y => by simp [causalityBaseFl]⟩
  · split
    · refine ⟨fun x y => |rnd (y 0 - x 0)| ≥ rndS (|rnd (y 1 - x 1)| - eps), fun x y h => ?_, fun x y => rfl⟩
      dsimp only at h ⊢
      rw [hr.sub_comm (x 0), hr.sub_comm (x 1), abs_neg, abs_neg]; exact h
    · refine ⟨fun x y => rnd (rnd (y 0 - x 0) ^ 2) ≥ rndS (flSum rndS ((List.range' 1 (dim - 1)).map fun i => rnd (rnd (y i - x i) ^ 2)) - eps), fun x y h => ?_, fun x y => rfl⟩
      have e : ((List.range' 1 (dim - 1)).map fun i => rnd (rnd (x i - y i) ^ 2)) = (List.range' 1 (dim - 1)).map fun i => rnd (rnd (y i - x i) ^ 2) :=
        List.map_congr_left fun i _ => by rw [hr.sub_comm (x i), neg_sq]
      dsimp only at h ⊢
      rw [hr.sub_comm (x 0), neg_sq, e]; exact h

/-- **C115, directions.** With coordinates and differences in a floating point format of `p` bits (24 for `float32`), any rounding of the sums, any tolerance and any dimension: never both
directions; the second answer means "the second point precedes the first, and not conversely"; the answers respect the order of the times exactly; for different times swapping the
points swaps the answers. -/
theorem C115_directions {p : ℕ} {emin : ℤ} (hp : 1 ≤ p) (hr : IsRoundingTo (FloatNum p emin) rnd) (rndS : ℝ → ℝ) (eps : ℝ) (dim : ℕ) (x y : Point)
    (hx : x 0 ∈ FloatNum p emin) (hy : y 0 ∈ FloatNum p emin) :
    let c := causalityMinkMix rnd rndS eps dim
    ¬ ((c x y).1 = true ∧ (c x y).2 = true) ∧ ((c x y).2 = true ↔ (c y x).1 = true ∧ (c x y).1 = false) ∧
    ((c x y).1 = true → x 0 ≤ y 0) ∧ ((c x y).2 = true → y 0 < x 0) ∧ (x 0 ≠ y 0 → c y x = ((c x y).2, (c x y).1)) := by
  intro c
  obtain ⟨causal, hs, hf⟩ := mink_formMix hr rndS eps dim
  obtain ⟨h1, h2⟩ := directions_of_form (fun x y => hr.sub_comm (x 0) (y 0)) hs hf x y
  have k1 : (c x y).1 = true → x 0 ≤ y 0 := by
    intro h
    simp only [c, hf x y, test, Bool.and_eq_true, decide_eq_true_eq] at h
    exact (sub_nonneg_floatNum hp hr hx hy).1 h.1
  have k2 : (c x y).2 = true → y 0 < x 0 := by
    intro h
    simp only [c, hf x y, test, Bool.and_eq_true, decide_eq_true_eq] at h
    by_contra hc
    exact absurd ((sub_nonneg_floatNum hp hr hx hy).2 (not_lt.1 hc)) (not_le.2 h.1)
  refine ⟨h1, h2, k1, k2, fun hne => ?_⟩
  have hs' : causal x y ↔ causal y x := ⟨hs x y, hs y x⟩
  have e1 : rnd (y 0 - x 0) ≥ 0 ↔ rnd (x 0 - y 0) < 0 := by
    rw [ge_iff_le, sub_nonneg_floatNum hp hr hx hy, ← not_le, sub_nonneg_floatNum hp hr hy hx, not_le]
    exact ⟨fun h => lt_of_le_of_ne h hne, le_of_lt⟩
  have e2 : rnd (y 0 - x 0) < 0 ↔ rnd (x 0 - y 0) ≥ 0 := by
    rw [← not_iff_not, not_lt, ge_iff_le, not_le]; exact e1
  have f1 : test (causal y x) = test (causal x y) := decide_eq_decide.2 hs'.symm
  have f2 : test (rnd (x 0 - y 0) < 0) = test (rnd (y 0 - x 0) ≥ 0) := decide_eq_decide.2 e1.symm
  have f3 : test (rnd (x 0 - y 0) ≥ 0) = test (rnd (y 0 - x 0) < 0) := decide_eq_decide.2 e2.symm
  simp only [c]
  rw [hf x y, hf y x, f1, f2, f3]

/-- **C115, two dimensions.** In two-dimensional Minkowski spacetime single precision loses no causal relation: for every two points, every tolerance `eps ≥ 0`, and sums in the same
format or a larger one (`float32` or `float64`), if the first point is in the past of the second, the answer is "first precedes second". -/
theorem C115_2D {F G : Set ℝ} (hr : IsRoundingTo F rnd) (hS : IsRoundingTo G rndS) (hFG : F ⊆ G) (eps : ℝ) (he : 0 ≤ eps) (x y : Point)
    (h : MinkLe 2 x y) : (causalityMinkMix rnd rndS eps 2 x y).1 = true := by
  rw [minkLe_iff] at h
  have h1 : |y 1 - x 1| ≤ |y 0 - x 0| := by
    rw [← sq_le_sq]
    have := h.2
    simpa [spaceSq] using this
  unfold causalityMinkMix
  rw [if_neg (by norm_num), if_pos rfl]
  simp only [causalityFlat2DMix, test, Bool.and_eq_true, decide_eq_true_eq]
  refine ⟨hr.nonneg h.1, ?_⟩
  rw [hr.abs, hr.abs]
  calc rndS (rnd |y 1 - x 1| - eps) ≤ rndS (rnd |y 1 - x 1|) := hS.mono (by linarith)
    _ = rnd |y 1 - x 1| := hS.fix (hFG (hr.mem _))
    _ ≤ rnd |y 0 - x 0| := hr.mono h1

/-! ## errors -/

/-- what the error analysis uses: `u` is the relative error, `w` the size below which the error is absolute -/
structure RoundErr (rnd : ℝ → ℝ) (u w : ℝ) : Prop where
  nonneg : ∀ z, 0 ≤ z → 0 ≤ rnd z
  nonpos : ∀ z, z ≤ 0 → rnd z ≤ 0
  mono : ∀ a b, a ≤ b → rnd a ≤ rnd b
  err : ∀ z, |rnd z - z| ≤ u * (|z| + w)

theorem roundErr_floatNum {p : ℕ} {emin : ℤ} (hp : 1 ≤ p) (hr : IsRoundingTo (FloatNum p emin) rnd) (u w : ℝ) (hu : (2 : ℝ) ^ (-(p : ℤ)) ≤ u) (hw : (2 : ℝ) ^ (emin - 1) ≤ u * w) :
    RoundErr rnd u w := by
  refine ⟨fun z => hr.nonneg, fun z h => ?_, fun a b => hr.mono, fun z => ?_⟩
  · have := hr.nonneg (neg_nonneg.2 h)
    rw [hr.odd] at this
    linarith
  · have := floatNum_err hp hr z
    have h2 : (2 : ℝ) ^ (-(p : ℤ)) * |z| ≤ u * |z| := mul_le_mul_of_nonneg_right hu (abs_nonneg _)
    linarith

section
variable {u w : ℝ} (hu0 : 0 < u) (hu : u ≤ 1 / 1000000) (hw0 : 0 < w) (hw1 : w ≤ 1)
include hu0 hu hw0 hw1

theorem RoundErr.sq_err (hr : RoundErr rnd u w) (d : ℝ) : |rnd (rnd d ^ 2) - d ^ 2| ≤ 6 * u * (d ^ 2 + w) := by
  have h := hr.err d
  have e : rnd d ^ 2 - d ^ 2 = (rnd d - d) * (2 * d + (rnd d - d)) := by ring
  have h0 := abs_nonneg d
  have hb : d ^ 2 = |d| ^ 2 := (sq_abs d).symm
  have h2 : |2 * d + (rnd d - d)| ≤ 2 * |d| + u * (|d| + w) := by
    refine (abs_add_le _ _).trans ?_
    rw [abs_mul, abs_two]; linarith
  have h1 : |rnd d ^ 2 - d ^ 2| ≤ 4 * u * (d ^ 2 + w) := by
    rw [e, abs_mul]
    calc |rnd d - d| * |2 * d + (rnd d - d)| ≤ (u * (|d| + w)) * (2 * |d| + u * (|d| + w)) := mul_le_mul h h2 (abs_nonneg _) (by positivity)
      _ ≤ 4 * u * (d ^ 2 + w) := by
        rw [hb]
        have k1 : u * (|d| + w) ≤ 1 / 1000000 * (|d| + w) := mul_le_mul_of_nonneg_right hu (by positivity)
        have k2 : w ^ 2 ≤ w := by nlinarith
        have k3 : (|d| + w) * (2 * |d| + u * (|d| + w)) ≤ (|d| + w) * (2 * |d| + 1 / 1000000 * (|d| + w)) := mul_le_mul_of_nonneg_left (by linarith) (by positivity)
        have k4 : (|d| + w) * (2 * |d| + 1 / 1000000 * (|d| + w)) ≤ 4 * (|d| ^ 2 + w ^ 2) := by nlinarith [sq_nonneg (|d| - w)]
        have k5 : (|d| + w) * (2 * |d| + u * (|d| + w)) ≤ 4 * (|d| ^ 2 + w) := by linarith
        calc u * (|d| + w) * (2 * |d| + u * (|d| + w)) = u * ((|d| + w) * (2 * |d| + u * (|d| + w))) := by ring
          _ ≤ u * (4 * (|d| ^ 2 + w)) := mul_le_mul_of_nonneg_left k5 hu0.le
          _ = _ := by ring
  have h3 := hr.err (rnd d ^ 2)
  rw [abs_of_nonneg (sq_nonneg (rnd d))] at h3
  have h4 := abs_sub_le (rnd (rnd d ^ 2)) (rnd d ^ 2) (d ^ 2)
  have h5 := (abs_le.1 h1).2
  have h6 : 4 * u * (d ^ 2 + w) ≤ 1 * d ^ 2 + 1 * w := by
    have : 4 * u * (d ^ 2 + w) ≤ 1 * (d ^ 2 + w) := mul_le_mul_of_nonneg_right (by linarith) (by positivity)
    linarith
  have h7 : u * (rnd d ^ 2 + w) ≤ u * (2 * (d ^ 2 + w)) := mul_le_mul_of_nonneg_left (by linarith) hu0.le
  linarith

theorem RoundErr.foldl_err (hr : RoundErr rnd u w) (P : ℝ) (hP : 0 ≤ P) : ∀ (l : List ℝ) (s σ : ℝ) (k : ℕ), (∀ q ∈ l, 0 ≤ q) → 0 ≤ σ → σ + l.sum ≤ P →
    ((k + l.length : ℕ) : ℝ) * (2 * u) ≤ 1 → |s - σ| ≤ k * (2 * u * (P + w)) →
    |l.foldl (fun s q => rnd (s + q)) s - (σ + l.sum)| ≤ (k + l.length : ℕ) * (2 * u * (P + w)) := by
  intro l
  induction l with
  | nil => intro s σ k _ _ _ _ h; simpa using h
  | cons q l ih =>
    intro s σ k hq hσ hs hk h
    have hq0 : 0 ≤ q := hq q List.mem_cons_self
    have hl0 : 0 ≤ l.sum := List.sum_nonneg fun a ha => hq a (List.mem_cons_of_mem _ ha)
    rw [List.sum_cons] at hs
    have hk1 : ((k + 1 : ℕ) : ℝ) * (2 * u) ≤ 1 := by
      refine le_trans (mul_le_mul_of_nonneg_right ?_ (by linarith)) hk
      have : k + 1 ≤ k + (q :: l).length := by simp
      exact_mod_cast this
    have h1 : |rnd (s + q) - (σ + q)| ≤ ((k + 1 : ℕ) : ℝ) * (2 * u * (P + w)) := by
      have e1 := hr.err (s + q)
      have e2 := abs_sub_le (rnd (s + q)) (s + q) (σ + q)
      have e3 : |s + q - (σ + q)| = |s - σ| := by congr 1; ring
      have e4 : |s + q| ≤ P + |s - σ| := by
        have : s + q = (σ + q) + (s - σ) := by ring
        rw [this]
        refine (abs_add_le _ _).trans ?_
        rw [abs_of_nonneg (by linarith : 0 ≤ σ + q)]
        linarith
      have hPw : 0 ≤ P + w := by linarith
      have e5 : (k : ℝ) * (2 * u * (P + w)) ≤ P + w := by
        push_cast at hk1
        have : (k : ℝ) * (2 * u) ≤ 1 := by linarith
        nlinarith
      push_cast
      have e6 : u * (|s + q| + w) ≤ u * (2 * (P + w)) := mul_le_mul_of_nonneg_left (by linarith) hu0.le
      rw [e3] at e2
      nlinarith
    have h2 := ih (rnd (s + q)) (σ + q) (k + 1) (fun a ha => hq a (List.mem_cons_of_mem _ ha)) (by linarith) (by linarith)
      (by rw [show k + 1 + l.length = k + (q :: l).length by simp; omega]; exact hk) h1
    rw [List.foldl_cons, List.sum_cons, show k + (q :: l).length = k + 1 + l.length by simp; omega, show σ + (q + l.sum) = σ + q + l.sum by ring]
    exact h2

theorem RoundErr.sum_near (hr : RoundErr rnd u w) (L : List ℕ) (Q q : ℕ → ℝ) (hQ : ∀ i ∈ L, 0 ≤ Q i) (hq : ∀ i ∈ L, 0 ≤ q i)
    (h : ∀ i ∈ L, |Q i - q i| ≤ 6 * u * (q i + w)) (hn : (L.length : ℝ) * (2 * u) ≤ 1) :
    |flSum rnd (L.map Q) - (L.map q).sum| ≤ (4 * L.length + 6) * u * ((L.map q).sum + (L.length + 1) * w) := by
  have h1 := hr.foldl_err hu0 hu hw0 hw1 (L.map Q).sum (List.sum_nonneg fun a ha => by
    obtain ⟨i, hi, rfl⟩ := List.mem_map.1 ha; exact hQ i hi) (L.map Q) 0 0 0 (fun a ha => by
    obtain ⟨i, hi, rfl⟩ := List.mem_map.1 ha; exact hQ i hi) le_rfl (by simp) (by simpa using hn) (by simp)
  simp only [zero_add, List.length_map] at h1
  have key : ∀ L : List ℕ, (∀ i ∈ L, 0 ≤ q i) → (∀ i ∈ L, |Q i - q i| ≤ 6 * u * (q i + w)) →
      |(L.map Q).sum - (L.map q).sum| ≤ 6 * u * ((L.map q).sum + L.length * w) ∧ 0 ≤ (L.map q).sum := by
    intro L
    induction L with
    | nil => intro _ _; simp
    | cons i L ih =>
      intro hq h
      obtain ⟨a1, a2⟩ := ih (fun j hj => hq j (List.mem_cons_of_mem _ hj)) (fun j hj => h j (List.mem_cons_of_mem _ hj))
      have b1 := hq i List.mem_cons_self
      have b2 := h i List.mem_cons_self
      simp only [List.map_cons, List.sum_cons, List.length_cons]
      refine ⟨?_, by linarith⟩
      have : Q i + (L.map Q).sum - (q i + (L.map q).sum) = (Q i - q i) + ((L.map Q).sum - (L.map q).sum) := by ring
      rw [this]
      refine (abs_add_le _ _).trans ?_
      push_cast
      linarith
  obtain ⟨a1, a2⟩ := key L hq h
  have h2 := abs_sub_le (flSum rnd (L.map Q)) (L.map Q).sum (L.map q).sum
  have h3 := (abs_le.1 a1).2
  set q' := (L.map q).sum
  set Q' := (L.map Q).sum
  have hL : (0 : ℝ) ≤ L.length := Nat.cast_nonneg _
  have hLw : 0 ≤ (L.length : ℝ) * w := mul_nonneg hL hw0.le
  have k1 : 6 * u * (q' + L.length * w) ≤ 1 * (q' + L.length * w) := mul_le_mul_of_nonneg_right (by linarith) (by linarith)
  have h4 : Q' + w ≤ 2 * (q' + (L.length + 1) * w) := by linarith
  have h5 : (L.length : ℝ) * (2 * u * (Q' + w)) ≤ L.length * (2 * u * (2 * (q' + (L.length + 1) * w))) :=
    mul_le_mul_of_nonneg_left (mul_le_mul_of_nonneg_left h4 (by linarith)) hL
  have h6 : 6 * u * (q' + L.length * w) ≤ 6 * u * (q' + (L.length + 1) * w) := mul_le_mul_of_nonneg_left (by linarith) (by linarith)
  have e : flSum rnd (L.map Q) = List.foldl (fun s q => rnd (s + q)) 0 (L.map Q) := rfl
  rw [e] at h2 ⊢
  linarith

end

/-- the squared distance in space -/
theorem spaceSq_list (dim : ℕ) (x y : Point) : spaceSq dim x y = ((List.range' 1 (dim - 1)).map fun i => (y i - x i) ^ 2).sum := by
  unfold spaceSq; rw [sum_Ico_list]

/-- **C115, accuracy.** For coordinates in single precision, sums and the tolerance in single or double precision (or any mixture of formats with at least 24 bits and exponents down to
`-149`), in Minkowski spacetime of 3 to 100000 dimensions: with `E = (4 dim + 12) 2^-24 (d² + eps + dim 2^-126)`, where `d²` is the exact squared distance in space, the answer is "first
precedes second" whenever the first time is not later and `d² + E ≤ t² + eps`, and this answer is only given if the first time is not later and `d² ≤ t² + eps + E`. -/
theorem C115_accuracy {p q : ℕ} {emin fmin : ℤ} (hp : 24 ≤ p) (hq : 24 ≤ q) (he1 : emin ≤ -149) (he2 : fmin ≤ -149) (hr : IsRoundingTo (FloatNum p emin) rnd)
    (hS : IsRoundingTo (FloatNum q fmin) rndS) (eps : ℝ) (heps : 0 ≤ eps) (dim : ℕ) (hd : 3 ≤ dim) (hd2 : dim ≤ 100000) (x y : Point)
    (hx : x 0 ∈ FloatNum p emin) (hy : y 0 ∈ FloatNum p emin) :
    let E := (4 * dim + 12) / 2 ^ 24 * (spaceSq dim x y + eps + dim / 2 ^ 126)
    (x 0 ≤ y 0 → spaceSq dim x y + E ≤ (y 0 - x 0) ^ 2 + eps → (causalityMinkMix rnd rndS eps dim x y).1 = true) ∧
    ((causalityMinkMix rnd rndS eps dim x y).1 = true → x 0 ≤ y 0 ∧ spaceSq dim x y ≤ (y 0 - x 0) ^ 2 + eps + E) := by
  intro E
  set u : ℝ := 1 / 2 ^ 24 with hu
  set w : ℝ := 1 / 2 ^ 126 with hw
  have hu0 : 0 < u := by rw [hu]; positivity
  have hus : u ≤ 1 / 1000000 := by rw [hu]; norm_num
  have hw0 : 0 < w := by rw [hw]; positivity
  have hw1 : w ≤ 1 := by rw [hw]; norm_num
  have huw : u * w = 2 ^ (-150 : ℤ) := by rw [hu, hw, zpow_neg]; norm_num
  have hz24 : (2 : ℝ) ^ (-24 : ℤ) = u := by rw [hu, zpow_neg, one_div]; norm_cast
  have r1 : RoundErr rnd u w := roundErr_floatNum (by omega) hr u w (by rw [← hz24]; exact zpow_le_zpow_right₀ (by norm_num) (by omega))
    (by rw [huw]; exact zpow_le_zpow_right₀ (by norm_num) (by omega))
  have r2 : RoundErr rndS u w := roundErr_floatNum (by omega) hS u w (by rw [← hz24]; exact zpow_le_zpow_right₀ (by norm_num) (by omega))
    (by rw [huw]; exact zpow_le_zpow_right₀ (by norm_num) (by omega))
  have htime : (causalityMinkMix rnd rndS eps dim x y).1 = true → x 0 ≤ y 0 := (C115_directions (by omega) hr rndS eps dim x y hx hy).2.2.1
  have hL : (List.range' 1 (dim - 1)).length = dim - 1 := List.length_range'
  have hdr : ((dim - 1 : ℕ) : ℝ) = dim - 1 := by rw [Nat.cast_sub (by omega)]; norm_num
  have hdn : (dim : ℝ) ≤ 100000 := by exact_mod_cast hd2
  have hdn3 : (3 : ℝ) ≤ dim := by exact_mod_cast hd
  have hsum := r2.sum_near hu0 hus hw0 hw1 (List.range' 1 (dim - 1)) (fun i => rnd (rnd (y i - x i) ^ 2)) (fun i => (y i - x i) ^ 2)
    (fun i _ => r1.nonneg _ (sq_nonneg _)) (fun i _ => sq_nonneg _) (fun i _ => r1.sq_err hu0 hus hw0 hw1 (y i - x i)) (by
      rw [hL, hdr]
      calc ((dim : ℝ) - 1) * (2 * u) ≤ 100000 * (2 * (1 / 1000000)) := mul_le_mul (by linarith) (by linarith) (by linarith) (by norm_num)
        _ ≤ 1 := by norm_num)
  rw [← spaceSq_list, hL, hdr] at hsum
  set S := flSum rndS ((List.range' 1 (dim - 1)).map fun i => rnd (rnd (y i - x i) ^ 2)) with hSdef
  have hform : (causalityMinkMix rnd rndS eps dim x y).1 = true ↔ 0 ≤ rnd (y 0 - x 0) ∧ rndS (S - eps) ≤ rnd (rnd (y 0 - x 0) ^ 2) := by
    unfold causalityMinkMix
    rw [if_neg (by omega), if_neg (by omega)]
    simp only [causalityFlatMix, test, Bool.and_eq_true, decide_eq_true_eq, ge_iff_le, ← hSdef]
  set D := spaceSq dim x y with hD
  set t := y 0 - x 0 with ht
  have hD0 : 0 ≤ D := by rw [hD, spaceSq]; exact Finset.sum_nonneg fun i _ => sq_nonneg _
  set R := D + dim * w with hR
  have hdw : w ≤ dim * w := le_mul_of_one_le_left hw0.le (by linarith)
  have hRw : w ≤ R := by rw [hR]; linarith
  have hDR : D ≤ R := by rw [hR]; linarith
  have hE : E = (4 * dim + 12) * u * (R + eps) := by
    simp only [E, hu, hR, hw]; ring
  clear_value E
  have hsum' : |S - D| ≤ (4 * dim + 2) * u * R := by
    have e : (4 * ((dim : ℝ) - 1) + 6) * u * (D + ((dim : ℝ) - 1 + 1) * w) = (4 * dim + 2) * u * R := by rw [hR]; ring
    rw [← e]; exact hsum
  have hs := abs_le.1 hsum'
  have hsq := abs_le.1 (r1.sq_err hu0 hus hw0 hw1 t)
  have hse := abs_le.1 (r2.err (S - eps))
  clear_value S D R u w t
  have hnu : (4 * (dim : ℝ) + 12) * u ≤ 1 / 2 := by
    have : (4 * (dim : ℝ) + 12) * u ≤ 400012 * u := mul_le_mul_of_nonneg_right (by linarith) hu0.le
    have h2 : 400012 * u ≤ 1 / 2 := by rw [hu]; norm_num
    linarith
  have hnu6 : 6 * ((4 * (dim : ℝ) + 12) * u) ≤ 1 := by
    have : (4 * (dim : ℝ) + 12) * u ≤ 400012 * u := mul_le_mul_of_nonneg_right (by linarith) hu0.le
    have h2 : 6 * (400012 * u) ≤ 1 := by rw [hu]; norm_num
    linarith
  have hR0 : 0 ≤ R := by linarith
  have hSabs : |S - eps| ≤ D + (4 * dim + 2) * u * R + eps := by
    rw [abs_le]; constructor <;> linarith
  have hsm : (4 * (dim : ℝ) + 2) * u * R ≤ R := by
    have : (4 * (dim : ℝ) + 2) * u ≤ 1 := by linarith
    calc (4 * (dim : ℝ) + 2) * u * R ≤ 1 * R := mul_le_mul_of_nonneg_right this hR0
      _ = R := one_mul R
  -- the error of the right hand side
  have hrhs : u * (|S - eps| + w) ≤ u * (3 * R + eps) := by
    refine mul_le_mul_of_nonneg_left ?_ hu0.le
    linarith
  have huR : 0 ≤ u * R := mul_nonneg hu0.le hR0
  have hue : 0 ≤ u * eps := mul_nonneg hu0.le heps
  have hduR : 0 ≤ (dim : ℝ) * (u * R) := mul_nonneg (by linarith) huR
  have hdue : 3 * (u * eps) ≤ (dim : ℝ) * (u * eps) := mul_le_mul_of_nonneg_right hdn3 hue
  have hEe : E = 4 * (dim * (u * R)) + 12 * (u * R) + 4 * (dim * (u * eps)) + 12 * (u * eps) := by rw [hE]; ring
  constructor
  · intro h0 hle
    rw [hform]
    refine ⟨hr.nonneg (by linarith), ?_⟩
    have k1 : t ^ 2 - 6 * u * (t ^ 2 + w) ≥ (D + E - eps) - 6 * u * (D + E - eps + w) := by
      have : (1 - 6 * u) * (D + E - eps) ≤ (1 - 6 * u) * t ^ 2 := mul_le_mul_of_nonneg_left (by linarith) (by linarith)
      linarith
    have k2 : 6 * u * E ≤ u * (R + eps) := by
      rw [hE]
      have : 6 * u * ((4 * (dim : ℝ) + 12) * u * (R + eps)) = (6 * ((4 * (dim : ℝ) + 12) * u)) * (u * (R + eps)) := by ring
      rw [this]
      calc _ ≤ 1 * (u * (R + eps)) := mul_le_mul_of_nonneg_right hnu6 (mul_nonneg hu0.le (by linarith))
        _ = _ := one_mul _
    have k3 : 6 * u * (D + w) ≤ 6 * u * (R) := by
      refine mul_le_mul_of_nonneg_left ?_ (by linarith)
      rw [hR]
      linarith
    linarith
  · intro h
    refine ⟨htime h, ?_⟩
    have h2 := (hform.1 h).2
    by_cases hc : D ≤ t ^ 2
    · have : 0 ≤ E := by rw [hE]; positivity
      linarith
    · push Not at hc
      have k3 : 6 * u * (t ^ 2 + w) ≤ 6 * u * R := by
        refine mul_le_mul_of_nonneg_left ?_ (by linarith)
        rw [hR]
        linarith
      linarith

end Causets
