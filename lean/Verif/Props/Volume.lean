import Verif.Props.Limits
import Verif.Lemmas.Volume

/-! # C53 — `Volume` is the Lebesgue measure of the shape (shapes.py) -/

namespace Causets
open CoordinateShape MeasureTheory

/-- the coordinate vector `x` with `n` entries as a point -/
def toPoint {n : ℕ} (x : Fin n → ℝ) : Point := fun i => if h : i < n then x ⟨i, h⟩ else 0

theorem toPoint_fin {n : ℕ} (x : Fin n → ℝ) (i : Fin n) : toPoint x i = x i := by simp [toPoint]

theorem distFrom_zero {n : ℕ} (c : Point) (x : Fin n → ℝ) : distFrom 0 n c (toPoint x) = enorm2 (fun i : Fin n => x i - c i) := by
  unfold distFrom enorm2
  congr 1
  rw [← Finset.range_eq_Ico, Finset.sum_range]
  simp only [toPoint_fin]

theorem distFrom_one {n : ℕ} (c : Point) (x : Fin (n + 1) → ℝ) :
    distFrom 1 (n + 1) c (toPoint x) = enorm2 (fun i : Fin n => x i.succ - c (i + 1)) := by
  unfold distFrom enorm2
  congr 1
  rw [Finset.sum_Ico_eq_sum_range, Finset.sum_range]
  refine Finset.sum_congr rfl fun i _ => ?_
  rw [add_comm 1]
  have : toPoint x ((i : ℕ) + 1) = x i.succ := toPoint_fin x i.succ
  rw [this]

theorem volume_ballRegion (n : ℕ) (c : Point) {r h : ℝ} (hr : 0 < r) (h0 : 0 ≤ h) (h1 : h < 1) :
    volume {x : Fin n → ℝ | toPoint x ∈ ballRegion n c r h} = ENNReal.ofReal (omega n * (r ^ n - if 0 < h * r then (h * r) ^ n else 0)) := by
  rw [← volume_shell n (by positivity) (by nlinarith : h * r ≤ r)]
  refine Eq.trans ?_ (volume_translate (fun i : Fin n => c i) _)
  congr 1
  ext x
  simp only [ballRegion, Set.mem_setOf_eq, distFrom_zero]

theorem volume_cylinderRegion (n : ℕ) (c : Point) {r h t : ℝ} (hr : 0 < r) (h0 : 0 ≤ h) (h1 : h < 1) (ht : 0 ≤ t) :
    volume {x : Fin (n + 1) → ℝ | toPoint x ∈ cylinderRegion (n + 1) c r t h} =
      ENNReal.ofReal (omega n * (r ^ n - if 0 < h * r then (h * r) ^ n else 0) * t) := by
  rw [← volume_cylinder n (by positivity) (by nlinarith : h * r ≤ r) ht]
  refine Eq.trans ?_ (volume_translate (fun i : Fin (n + 1) => c i) _)
  congr 1
  ext x
  have : toPoint x 0 = x 0 := toPoint_fin x 0
  simp only [cylinderRegion, Set.mem_setOf_eq, distFrom_one, this, Fin.val_succ, Fin.val_zero]

theorem volume_biconeRegion (n : ℕ) (c : Point) {r h : ℝ} (hr : 0 < r) (h0 : 0 ≤ h) (h1 : h < 1) :
    volume {x : Fin (n + 1) → ℝ | toPoint x ∈ biconeRegion (n + 1) c r h} =
      ENNReal.ofReal (omega n * (2 * (r ^ (n + 1) - (h * r) ^ (n + 1)) / (n + 1))) := by
  rw [← volume_bicone n (by positivity) (by nlinarith : h * r ≤ r)]
  refine Eq.trans ?_ (volume_translate (fun i : Fin (n + 1) => c i) _)
  congr 1
  ext x
  have : toPoint x 0 = x 0 := toPoint_fin x 0
  simp only [biconeRegion, Set.mem_setOf_eq, distFrom_one, this, Fin.val_succ, Fin.val_zero]

theorem volume_cuboidRegion (n : ℕ) (c : Point) (e : ℕ → ℝ) (he : ∀ i < n, 0 ≤ e i) :
    volume {x : Fin n → ℝ | toPoint x ∈ cuboidRegion n c e} = ENNReal.ofReal (∏ i ∈ Finset.range n, e i) := by
  have h : {x : Fin n → ℝ | toPoint x ∈ cuboidRegion n c e} =
      Set.Icc (fun i : Fin n => c i - e i / 2) (fun i : Fin n => c i + e i / 2) := by
    ext x
    simp only [cuboidRegion, Set.mem_setOf_eq, Set.mem_Icc, Pi.le_def]
    constructor
    · intro h
      refine ⟨fun i => ?_, fun i => ?_⟩ <;>
        · have := abs_le.1 (h i i.2)
          rw [toPoint_fin] at this
          linarith [this.1, this.2]
    · rintro ⟨h1, h2⟩ i hi
      have e1 := h1 ⟨i, hi⟩
      have e2 := h2 ⟨i, hi⟩
      rw [← toPoint_fin x] at e1 e2
      exact abs_le.2 ⟨by linarith, by linarith⟩
  rw [h, Real.volume_Icc_pi, Finset.prod_range, ENNReal.ofReal_prod_of_nonneg (fun i _ => he _ i.2)]
  refine Finset.prod_congr rfl fun i _ => ?_
  congr 1; ring

theorem omega_succ_form (n : ℕ) : Real.pi ^ (((n + 1 : ℕ) : ℝ) / 2 - 0.5) / Real.Gamma (((n + 1 : ℕ) : ℝ) / 2 + 0.5) = omega n := by
  unfold omega
  have e1 : ((n + 1 : ℕ) : ℝ) / 2 - 0.5 = (n : ℝ) / 2 := by push_cast; ring
  have e2 : ((n + 1 : ℕ) : ℝ) / 2 + 0.5 = (n : ℝ) / 2 + 1 := by push_cast; ring
  rw [e1, e2]

/-- **C53.** For every shape object, `Volume` is the Lebesgue measure of its region in `ℝ^Dim`; it is not negative, and it is positive except
for a hollow cylinder in one dimension. -/
theorem C53_volume (S : CoordinateShape) (hS : S.WellFormed) :
    volume {x : Fin S.dim → ℝ | toPoint x ∈ S.region} = ENNReal.ofReal S.volume ∧ 0 ≤ S.volume ∧
    (¬ (S.name = "cylinder" ∧ S.dim = 1 ∧ 0 < S.hollow.getD 0) → 0 < S.volume) := by
  obtain ⟨hd, hc, h⟩ := hS
  have hpw : ∀ (r h : ℝ) (n : ℕ), 0 < r → 0 ≤ h → h < 1 → n ≠ 0 → (h * r) ^ n < r ^ n := fun r h n hr h0 h1 hn =>
    pow_lt_pow_left₀ (by nlinarith) (by positivity) hn
  rcases h with ⟨r, h, h1, h2, h3, hS⟩ | ⟨r, h, h1, h2, h3, hS⟩ | ⟨r, h, t, h1, h2, h3, h4, hS⟩ | ⟨a, h1, hS⟩ | ⟨as, h1, h2, hS⟩
  · generalize S.dim = d at *
    generalize S.center = c at *
    subst hS
    have hv : CoordinateShape.volume ⟨d, "ball", c, some r, some h, none, none, none⟩ = omega d * (r ^ d - if 0 < h * r then (h * r) ^ d else 0) := by
      have : (0 < h * r) ↔ 0 < h := mul_pos_iff_of_pos_right h1
      simp only [CoordinateShape.volume, Option.getD_some, if_true, test, gt_iff_lt, this, decide_eq_true_eq, omega]
      split_ifs <;> ring
    have hp : 0 < omega d * (r ^ d - if 0 < h * r then (h * r) ^ d else 0) := by
      refine mul_pos (omega_pos d) ?_
      split_ifs
      · have := hpw r h d h1 h2 h3 (by omega)
        linarith
      · rw [sub_zero]; positivity
    refine ⟨?_, hv ▸ hp.le, fun _ => hv ▸ hp⟩
    rw [hv, ← volume_ballRegion d (fun i => c.getD i 0) h1 h2 h3]
    rfl
  · generalize S.dim = d at *
    generalize S.center = c at *
    subst hS
    obtain ⟨n, rfl⟩ : ∃ n, d = n + 1 := ⟨d - 1, by omega⟩
    have hv : CoordinateShape.volume ⟨n + 1, "bicone", c, some r, some h, none, none, none⟩ =
        omega n * (2 * (r ^ (n + 1) - (h * r) ^ (n + 1)) / (n + 1)) := by
      simp only [CoordinateShape.volume, Option.getD_some, if_true, if_false, String.reduceEq, omega_succ_form, test, gt_iff_lt, decide_eq_true_eq]
      split_ifs with hh
      · push_cast; ring
      · have : h = 0 := le_antisymm (not_lt.1 hh) h2
        rw [this]; push_cast; simp; ring
    have hp : 0 < omega n * (2 * (r ^ (n + 1) - (h * r) ^ (n + 1)) / (n + 1)) := by
      refine mul_pos (omega_pos n) (div_pos ?_ (by positivity))
      have := hpw r h (n + 1) h1 h2 h3 (by omega)
      linarith
    refine ⟨?_, hv ▸ hp.le, fun _ => hv ▸ hp⟩
    rw [hv, ← volume_biconeRegion n (fun i => c.getD i 0) h1 h2 h3]
    rfl
  · generalize S.dim = d at *
    generalize S.center = c at *
    subst hS
    obtain ⟨n, rfl⟩ : ∃ n, d = n + 1 := ⟨d - 1, by omega⟩
    have hhr : (0 < h * r) ↔ 0 < h := mul_pos_iff_of_pos_right h1
    have hv : CoordinateShape.volume ⟨n + 1, "cylinder", c, some r, some h, some t, none, none⟩ =
        omega n * (r ^ n - if 0 < h * r then (h * r) ^ n else 0) * t := by
      simp only [CoordinateShape.volume, Option.getD_some, if_true, if_false, String.reduceEq, omega_succ_form, test, gt_iff_lt, hhr, decide_eq_true_eq,
        Nat.add_sub_cancel]
      split_ifs <;> ring
    have hnn : 0 ≤ r ^ n - (if 0 < h * r then (h * r) ^ n else 0) := by
      split_ifs
      · have := pow_le_pow_left₀ (by positivity) (by nlinarith : h * r ≤ r) n
        linarith
      · rw [sub_zero]; positivity
    refine ⟨?_, ?_, fun hne => ?_⟩
    · rw [hv, ← volume_cylinderRegion n (fun i => c.getD i 0) h1 h2 h3 h4.le]
      rfl
    · rw [hv]; exact mul_nonneg (mul_nonneg (omega_pos n).le hnn) h4.le
    · rw [hv]
      refine mul_pos (mul_pos (omega_pos n) ?_) h4
      by_cases hh : 0 < h
      · rw [if_pos (hhr.2 hh)]
        have hn : n ≠ 0 := fun e => hne ⟨rfl, by simp [e], hh⟩
        have := hpw r h n h1 h2 h3 hn
        linarith
      · rw [if_neg (fun e => hh (hhr.1 e)), sub_zero]; positivity
  · generalize S.dim = d at *
    generalize S.center = c at *
    subst hS
    have hv : CoordinateShape.volume ⟨d, "cube", c, none, none, none, some a, none⟩ = a ^ d := by
      simp [CoordinateShape.volume]
    have hp : 0 < a ^ d := by positivity
    refine ⟨?_, hv ▸ hp.le, fun _ => hv ▸ hp⟩
    rw [hv]
    have := volume_cuboidRegion d (fun i => c.getD i 0) (fun _ => a) (fun _ _ => h1.le)
    rw [Finset.prod_const, Finset.card_range] at this
    rw [← this]
    rfl
  · generalize S.dim = d at *
    generalize S.center = c at *
    subst hS
    have hv : CoordinateShape.volume ⟨d, "cuboid", c, none, none, none, none, some as⟩ = ∏ i ∈ Finset.range d, as.getD i 0 := by
      simp only [CoordinateShape.volume, String.reduceEq, if_true, if_false, Option.getD_some]
      subst h1
      rw [Finset.prod_range, ← List.prod_ofFn]
      congr 1
      refine List.ext_getElem (by simp) fun i h1 h2 => ?_
      simp [h1]
    have hpos : ∀ i < d, 0 < as.getD i 0 := fun i hi => h2 _ (getD_mem_real as (by omega))
    have hp : 0 < ∏ i ∈ Finset.range d, as.getD i 0 := Finset.prod_pos fun i hi => hpos i (Finset.mem_range.1 hi)
    refine ⟨?_, hv ▸ hp.le, fun _ => hv ▸ hp⟩
    rw [hv, ← volume_cuboidRegion d (fun i => c.getD i 0) (fun i => as.getD i 0) (fun i hi => (hpos i hi).le)]
    rfl

/-- **Specification.** The hollow cylinder of the documentation: "'hollow' is the fraction (between 0.0 and 1.0) of the radius *and duration* of the cylinder to
give an empty interior". -/
def hollowCylinderDoc (dim : ℕ) (c : Point) (r duration hollow : ℝ) : Set Point :=
  cylinderRegion dim c r duration 0 \ cylinderRegion dim c (hollow * r) (hollow * duration) 0

/-- **C53, refuted for the documented hollow cylinder.** For *every* cylinder with a hollow fraction `0 < hollow`, `Volume` is smaller than the Lebesgue measure of
the documented region (the code leaves the interior empty over the whole duration). -/
theorem C53_documented_cylinder_refuted (n : ℕ) (c : List ℝ) {r h t : ℝ} (hr : 0 < r) (h0 : 0 < h) (h1 : h < 1) (ht : 0 < t) :
    ENNReal.ofReal (CoordinateShape.volume ⟨n + 1, "cylinder", c, some r, some h, some t, none, none⟩) <
      volume {x : Fin (n + 1) → ℝ | toPoint x ∈ hollowCylinderDoc (n + 1) (fun i => c.getD i 0) r t h} := by
  have hv : CoordinateShape.volume ⟨n + 1, "cylinder", c, some r, some h, some t, none, none⟩ = omega n * (r ^ n - (h * r) ^ n) * t := by
    simp only [CoordinateShape.volume, Option.getD_some, if_true, if_false, String.reduceEq, omega_succ_form, test, gt_iff_lt, h0, decide_true,
      Nat.add_sub_cancel]
    ring
  have e : {x : Fin (n + 1) → ℝ | toPoint x ∈ hollowCylinderDoc (n + 1) (fun i => c.getD i 0) r t h} =
      {x | toPoint x ∈ cylinderRegion (n + 1) (fun i => c.getD i 0) r t 0} \
        {x | toPoint x ∈ cylinderRegion (n + 1) (fun i => c.getD i 0) (h * r) (h * t) 0} := rfl
  have hv1 := volume_cylinderRegion n (fun i => c.getD i 0) hr le_rfl one_pos ht.le
  have hv2 := volume_cylinderRegion n (fun i => c.getD i 0) (mul_pos h0 hr) le_rfl one_pos (mul_pos h0 ht).le
  simp only [zero_mul, lt_irrefl, if_false, sub_zero] at hv1 hv2
  have hω := omega_pos n
  have hp : 0 < r ^ n := by positivity
  have hle : (h * r) ^ n ≤ r ^ n := pow_le_pow_left₀ (by positivity) (by nlinarith) n
  have hp' : 0 < (h * r) ^ n := by positivity
  refine lt_of_lt_of_le ?_ (e ▸ le_measure_diff)
  rw [hv, hv1, hv2, ← ENNReal.ofReal_sub _ (by positivity)]
  have h3 : omega n * (r ^ n - (h * r) ^ n) * t < omega n * r ^ n * t - omega n * (h * r) ^ n * (h * t) := by
    have : 0 < omega n * (h * r) ^ n * t * (1 - h) := by
      have : 0 < 1 - h := by linarith
      positivity
    nlinarith
  rw [ENNReal.ofReal_lt_ofReal_iff_of_nonneg]
  · exact h3
  · exact mul_nonneg (mul_nonneg hω.le (by linarith)) ht.le

/-- The exception in `C53_volume` is real: the volume of a hollow cylinder in one dimension is 0. -/
theorem C53_flat_cylinder_refuted : ∃ S, CoordinateShape.init 1 "cylinder" { hollow := some (1 / 2) } = .ok S ∧ S.volume = 0 := by
  have hv : ValidShape 1 "cylinder" { hollow := some (1 / 2) } := by
    simp [ValidShape]; norm_num
  refine ⟨⟨1, "cylinder", [0], some 1, some (1 / 2), some 2, none, none⟩, ?_, ?_⟩
  · unfold CoordinateShape.init
    simp only [String.reduceEq, if_true, if_false, or_true]
    norm_num [rangeFails, test]
  · simp only [CoordinateShape.volume, String.reduceEq, if_true, if_false]
    norm_num [test]

end Causets
