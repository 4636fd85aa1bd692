import Verif.Model.Sprinkling
import Verif.Props.Shapes

/-! # C48 — sprinkled coordinates lie in the shape (sprinkledcauset.py:67-127) -/

namespace Causets
open CoordinateShape

theorem uniform_mem (R : Draws) (k : List ℕ) {a b : ℝ} (h : a ≤ b) : a ≤ R.uniform k a b ∧ R.uniform k a b ≤ b := by
  obtain ⟨h0, h1⟩ := R.unif_mem k
  unfold Draws.uniform
  constructor
  · nlinarith
  · nlinarith

/-- the scale factor of the radius lies between `hollow` and 1 -/
theorem rScaling_mem (R : Draws) (k : List ℕ) (h : ℝ) (h0 : 0 ≤ h) (h1 : h < 1) (n : ℕ) (hn : n ≠ 0) :
    h ≤ (R.uniform k (h ^ n) 1) ^ (1 / (n : ℝ)) ∧ (R.uniform k (h ^ n) 1) ^ (1 / (n : ℝ)) ≤ 1 := by
  have hp : h ^ n ≤ 1 := pow_le_one₀ h0 h1.le
  obtain ⟨ha, hb⟩ := uniform_mem R k hp
  have hp0 : 0 ≤ h ^ n := pow_nonneg h0 n
  constructor
  · calc h = (h ^ n) ^ (1 / (n : ℝ)) := by rw [one_div, Real.pow_rpow_inv_natCast h0 hn]
      _ ≤ _ := Real.rpow_le_rpow hp0 ha (by positivity)
  · exact Real.rpow_le_one (hp0.trans ha) hb (by positivity)

/-- the distance of a scaled normal vector from the centre -/
theorem distFrom_scaled (R : Draws) (i dim k : ℕ) (hk : k ≤ dim) (c x : Point) (q : ℝ) (hq : 0 ≤ q)
    (hr : normalNorm R (dim - k) i ≠ 0) (hx : ∀ j, k ≤ j → j < dim → x j = c j + q / normalNorm R (dim - k) i * R.normal [113, i, j - k]) :
    distFrom k dim c x = q := by
  have hs : ∑ j ∈ Finset.Ico k dim, (x j - c j) ^ 2 = (q / normalNorm R (dim - k) i) ^ 2 * ∑ m ∈ Finset.range (dim - k), R.normal [113, i, m] ^ 2 := by
    rw [Finset.sum_Ico_eq_sum_range, Finset.mul_sum]
    apply Finset.sum_congr rfl
    intro m hm
    rw [Finset.mem_range] at hm
    rw [hx (k + m) (by omega) (by omega), Nat.add_sub_cancel_left]
    ring
  have hn : ∑ m ∈ Finset.range (dim - k), R.normal [113, i, m] ^ 2 = normalNorm R (dim - k) i ^ 2 := by
    rw [normalNorm, Real.sq_sqrt (Finset.sum_nonneg fun _ _ => sq_nonneg _)]
  rw [distFrom, hs, hn, ← mul_pow, div_mul_cancel₀ _ hr, Real.sqrt_sq hq]

/-- **C48 (partial).** Sprinkling `count ≥ 0` points into a cube, cuboid, ball or cylinder gives `count` coordinate vectors, all of them in the
region of the shape, for every random stream (in which no normal vector vanishes).  Not proved, because false: the same for 'bicone', see
`C48_bicone_uninitialised`; and a cylinder needs a spatial dimension, see `C48_cylinder_1d`. -/
theorem C48_in_region_partial (R : Draws) (junk : ℕ → Point) (S : CoordinateShape) (hS : S.WellFormed) (hb : S.name ≠ "bicone")
    (count : ℕ) (hc : S.name = "cylinder" → 2 ≤ S.dim ∨ count = 0) (hR : ∀ i < count, ∀ bd, 0 < bd → normalNorm R bd i ≠ 0) :
    ∃ rows, sprinkleCoords R junk S.dim count S = .ok rows ∧ rows.length = count ∧ ∀ x ∈ rows, x ∈ S.region := by
  obtain ⟨hd, hl, hcase⟩ := hS
  have hcuboid : ∀ (nm : String), nm = "cube" ∨ nm = "cuboid" → S.name = nm →
      (∀ j < S.dim, 0 < (if S.name = "cuboid" then (S.edges.getD []).getD j 0 else S.edge.getD 0)) →
      ∃ rows, sprinkleCoords R junk S.dim count S = .ok rows ∧ rows.length = count ∧ ∀ x ∈ rows, x ∈ S.region := by
    intro nm hnm hS hpos
    refine ⟨(List.range count).map (sprinkleCuboid R S.dim S), ?_, by simp, ?_⟩
    · unfold sprinkleCoords
      rw [if_neg (by omega)]
      simp only [Int.toNat_natCast]
      rw [if_pos (by rw [hS]; exact hnm)]
    · intro x hx
      obtain ⟨i, _, rfl⟩ := List.mem_map.1 hx
      have key : ∀ j < S.dim, |sprinkleCuboid R S.dim S i j - S.centerPoint j| ≤
          (if S.name = "cuboid" then (S.edges.getD []).getD j 0 else S.edge.getD 0) / 2 := by
        intro j hj
        have hp := hpos j hj
        simp only [sprinkleCuboid, if_pos hj, centerPoint]
        generalize (if S.name = "cuboid" then (S.edges.getD []).getD j 0 else S.edge.getD 0) = e at hp ⊢
        obtain ⟨h1, h2⟩ := uniform_mem R [84, i, j] (show S.center.getD j 0 - e / 2 ≤ S.center.getD j 0 + e / 2 by linarith)
        rw [abs_le]
        constructor <;> linarith
      rcases hnm with rfl | rfl
      · simp only [region, hS, String.reduceEq, if_true, if_false] at key ⊢
        exact key
      · simp only [region, hS, String.reduceEq, if_true, if_false] at key ⊢
        exact key
  have hround : ∀ (k : ℕ) (r h : ℝ), 0 < r → 0 ≤ h → h < 1 → S.radius = some r → S.hollow = some h → (S.name = "ball" ∧ k = 0 ∨ S.name = "cylinder" ∧ k = 1) →
      (k < S.dim ∨ count = 0) → ∃ rows, sprinkleCoords R junk S.dim count S = .ok rows ∧ rows.length = count ∧
      ∀ x ∈ rows, (∃ i < count, x = sprinkleBall R junk S.dim S i) ∧ h * r ≤ distFrom k S.dim S.centerPoint x ∧ distFrom k S.dim S.centerPoint x ≤ r := by
    intro k r h hr h0 h1 er eh hk hkd
    refine ⟨(List.range count).map (sprinkleBall R junk S.dim S), ?_, by simp, ?_⟩
    · unfold sprinkleCoords
      rw [if_neg (by omega)]
      simp only [Int.toNat_natCast]
      rcases hk with ⟨hn, rfl⟩ | ⟨hn, rfl⟩
      · simp only [hn, String.reduceEq, or_self, true_or, if_true, if_false, and_false, Nat.sub_zero]
        rw [if_neg (by rintro ⟨h1, _⟩; omega)]
      · simp only [hn, String.reduceEq, or_self, true_or, or_true, if_true, if_false, and_false]
        rw [if_neg (by rintro ⟨h1, h2⟩; omega)]
    · intro x hx
      obtain ⟨i, hi, rfl⟩ := List.mem_map.1 hx
      have hi' : i < count := List.mem_range.1 hi
      have hkd' : k < S.dim := by omega
      refine ⟨⟨i, hi', rfl⟩, ?_⟩
      obtain ⟨ha, hb'⟩ := rScaling_mem R [116, i] h h0 h1 (S.dim - k) (by omega)
      have hq : 0 ≤ (R.uniform [116, i] (h ^ (S.dim - k)) 1) ^ (1 / ((S.dim - k : ℕ) : ℝ)) * r := mul_nonneg (h0.trans ha) hr.le
      have hdist := distFrom_scaled R i S.dim k hkd'.le S.centerPoint (sprinkleBall R junk S.dim S i)
        ((R.uniform [116, i] (h ^ (S.dim - k)) 1) ^ (1 / ((S.dim - k : ℕ) : ℝ)) * r) hq (hR i hi' _ (by omega)) (by
          intro j hkj hj
          rcases hk with ⟨hn, rfl⟩ | ⟨hn, rfl⟩
          · simp only [sprinkleBall, hn, String.reduceEq, if_true, if_false, er, eh, Option.getD_some, centerPoint, Nat.not_lt_zero, if_pos hj, Nat.sub_zero]
          · simp only [sprinkleBall, hn, String.reduceEq, if_true, if_false, er, eh, Option.getD_some, centerPoint, if_neg (Nat.not_lt.2 hkj), if_pos hj])
      rw [hdist]
      exact ⟨mul_le_mul_of_nonneg_right ha hr.le, by nlinarith⟩
  rcases hcase with ⟨r, h, hr, h0, h1, e⟩ | ⟨r, h, hr, h0, h1, e⟩ | ⟨r, h, t, hr, h0, h1, ht, e⟩ | ⟨a, ha, e⟩ | ⟨as, hlen, has, e⟩
  · have en : S.name = "ball" := by rw [e]
    have er : S.radius = some r := by rw [e]
    have eh : S.hollow = some h := by rw [e]
    obtain ⟨rows, hrows, hlen, hmem⟩ := hround 0 r h hr h0 h1 er eh (Or.inl ⟨en, rfl⟩) (Or.inl (by omega))
    refine ⟨rows, hrows, hlen, fun x hx => ?_⟩
    simp only [region, en, if_true, er, eh, Option.getD_some]
    exact (hmem x hx).2
  · exact absurd (by rw [e]) hb
  · have en : S.name = "cylinder" := by rw [e]
    have er : S.radius = some r := by rw [e]
    have eh : S.hollow = some h := by rw [e]
    have et : S.duration = some t := by rw [e]
    obtain ⟨rows, hrows, hlen, hmem⟩ := hround 1 r h hr h0 h1 er eh (Or.inr ⟨en, rfl⟩) (by rcases hc en with h | h; exact Or.inl (by omega); exact Or.inr h)
    refine ⟨rows, hrows, hlen, fun x hx => ?_⟩
    simp only [region, en, String.reduceEq, if_true, if_false, er, eh, et, Option.getD_some]
    obtain ⟨⟨i, hi, rfl⟩, h2⟩ := hmem x hx
    refine ⟨?_, h2⟩
    obtain ⟨u1, u2⟩ := uniform_mem R [107, i] (show S.center.getD 0 0 - t / 2 ≤ S.center.getD 0 0 + t / 2 by linarith)
    simp only [sprinkleBall, en, String.reduceEq, if_true, if_false, et, Option.getD_some, centerPoint, Nat.zero_lt_one]
    rw [abs_le]
    constructor <;> linarith
  · refine hcuboid "cube" (Or.inl rfl) (by rw [e]) fun j hj => ?_
    have en : S.name = "cube" := by rw [e]
    have ea : S.edge = some a := by rw [e]
    simp only [en, ea, String.reduceEq, if_false, Option.getD_some]
    exact ha
  · refine hcuboid "cuboid" (Or.inr rfl) (by rw [e]) fun j hj => ?_
    have en : S.name = "cuboid" := by rw [e]
    have ea : S.edges = some as := by rw [e]
    simp only [en, ea, if_true, Option.getD_some]
    rw [List.getD_eq_getElem?_getD, List.getElem?_eq_getElem (by omega), Option.getD_some]
    exact has _ (List.getElem_mem _)

/-- **C48, refuted.** For a bicone (also if it was requested as 'diamond'; the default shape of flat spacetime) the coordinates are whatever the
allocated memory contains: any points whatsoever, so also points outside of the shape. -/
theorem C48_bicone_uninitialised (R : Draws) (junk : ℕ → Point) (S : CoordinateShape) (hn : S.name = "bicone") (count : ℕ) :
    sprinkleCoords R junk S.dim count S = .ok ((List.range count).map junk) := by
  unfold sprinkleCoords
  rw [if_neg (by omega)]
  simp only [hn, String.reduceEq, or_self, if_false, Int.toNat_natCast]

/-- the shape requested by `CoordinateShape(2, 'diamond')` and a memory content for which a sprinkled point is outside of it -/
theorem C48_bicone_refuted : ∃ S, CoordinateShape.init 2 "diamond" {} = .ok S ∧ S.WellFormed ∧ ∃ junk : ℕ → Point, ∀ R : Draws,
    ∃ rows, sprinkleCoords R junk S.dim 1 S = .ok rows ∧ ∃ x ∈ rows, x ∉ S.region := by
  have hv : ValidShape 2 "diamond" {} := by
    refine ⟨by norm_num, by simp, ?_, ?_, ?_, ?_, ?_⟩ <;> simp
  obtain ⟨S, hS, hw, hd, hname, hcen, hp, -⟩ := (C52_init 2 "diamond" {}).1 hv
  have hn : S.name = "bicone" := by rw [hname]; simp
  refine ⟨S, hS, hw, fun _ _ => 5, fun R => ⟨_, C48_bicone_uninitialised R _ S hn 1, _, List.mem_map.2 ⟨0, by simp, rfl⟩, ?_⟩⟩
  obtain ⟨hr, -⟩ := hp (by simp)
  simp only [region, hn, String.reduceEq, if_true, if_false, hr]
  rintro ⟨-, h⟩
  have h0 : S.centerPoint 0 = 0 := by
    have : S.dim = 2 := by exact_mod_cast hd
    simp [centerPoint, hcen, this]
  rw [h0] at h
  have h1 : 0 ≤ distFrom 1 S.dim S.centerPoint (fun _ => (5 : ℝ)) := Real.sqrt_nonneg _
  have h2 : |(5 : ℝ) - 0| = 5 := by norm_num
  simp only [Option.getD_none, Option.getD_some] at h
  rw [h2] at h
  linarith

/-- **C48.** A cylinder of dimension 1 cannot be sprinkled: `1.0 / 0` raises ZeroDivisionError. -/
theorem C48_cylinder_1d (R : Draws) (junk : ℕ → Point) (S : CoordinateShape) (hn : S.name = "cylinder") (hd : S.dim = 1) (count : ℕ) (hc : count ≠ 0) :
    sprinkleCoords R junk S.dim count S = .error .zeroDivisionError := by
  unfold sprinkleCoords
  rw [if_neg (by omega)]
  simp only [hn, hd, String.reduceEq, or_self, true_or, or_true, if_true, if_false, and_false, Int.toNat_natCast, Nat.sub_self]
  rw [if_pos ⟨trivial, hc⟩]

/-- **C48.** A negative count raises ValueError. -/
theorem C48_negative (R : Draws) (junk : ℕ → Point) (S : CoordinateShape) (dim : ℕ) (count : ℤ) (hc : count < 0) :
    sprinkleCoords R junk dim count S = .error .valueError := by
  unfold sprinkleCoords
  rw [if_pos hc]

/-- **C48.** Every point of the interior of a cube can be sprinkled: the image of the draws is the whole (half-open) cube. -/
theorem C48_cuboid_onto (S : CoordinateShape) (hS : S.WellFormed) (hn : S.name = "cube" ∨ S.name = "cuboid") (x : Point) (hx : x ∈ S.region)
    (hx' : ∀ j, S.dim ≤ j → x j = 0)
    (hlt : ∀ j < S.dim, x j - S.centerPoint j < (if S.name = "cuboid" then (S.edges.getD []).getD j 0 else S.edge.getD 0) / 2) (junk : ℕ → Point) :
    ∃ R : Draws, sprinkleCoords R junk S.dim 1 S = .ok [x] := by
  have hreg : ∀ j < S.dim, |x j - S.centerPoint j| ≤ (if S.name = "cuboid" then (S.edges.getD []).getD j 0 else S.edge.getD 0) / 2 := by
    rcases hn with hn | hn <;> simpa [region, hn, cuboidRegion] using hx
  let e : ℕ → ℝ := fun j => if S.name = "cuboid" then (S.edges.getD []).getD j 0 else S.edge.getD 0
  let u : ℕ → ℝ := fun j => if j < S.dim then (x j - (S.centerPoint j - e j / 2)) / e j else 0
  have hu : ∀ j, 0 ≤ u j ∧ u j < 1 := by
    intro j
    by_cases hj : j < S.dim
    · have h1 := (abs_le.1 (hreg j hj)).1
      have h2 := hlt j hj
      change -(e j / 2) ≤ _ at h1
      change _ < e j / 2 at h2
      have hpos : 0 < e j := by linarith
      simp only [u, if_pos hj]
      refine ⟨div_nonneg (by linarith) hpos.le, ?_⟩
      rw [div_lt_one hpos]
      linarith
    · simp [u, hj]
  refine ⟨⟨fun k => u (k.getD 2 0), fun _ => 0, fun k => hu _⟩, ?_⟩
  unfold sprinkleCoords
  rw [if_neg (by omega), if_pos hn]
  have : Int.toNat 1 = 1 := rfl
  simp only [this, List.range_one, List.map_cons, List.map_nil]
  congr 2
  funext j
  by_cases hj : j < S.dim
  · have h1 := (abs_le.1 (hreg j hj)).1
    have h2 := hlt j hj
    change -(e j / 2) ≤ _ at h1
    change _ < e j / 2 at h2
    have hpos : 0 < e j := by linarith
    simp only [sprinkleCuboid, if_pos hj, Draws.uniform, List.getD_cons_succ, List.getD_cons_zero]
    change S.center.getD j 0 - e j / 2 + (S.center.getD j 0 + e j / 2 - (S.center.getD j 0 - e j / 2)) * u j = x j
    simp only [u, if_pos hj, centerPoint]
    field_simp
    ring
  · simp [sprinkleCuboid, hj, hx' j (by omega)]

/-- The hypotheses of `C48_in_region_partial` hold for the documented hollow cylinder of dimension 3 and draws that are not constant. -/
example : ∃ (S : CoordinateShape) (R : Draws), CoordinateShape.init 3 "cylinder" { hollow := some (1/2), radius := some 2 } = .ok S ∧ S.WellFormed ∧
    S.name ≠ "bicone" ∧ (S.name = "cylinder" → 2 ≤ S.dim ∨ 7 = 0) ∧ ∀ i < 7, ∀ bd, 0 < bd → normalNorm R bd i ≠ 0 := by
  have hv : ValidShape 3 "cylinder" { hollow := some (1/2), radius := some 2 } := by
    refine ⟨by norm_num, by simp, by simp, ?_, by simp, by simp, by simp⟩
    intro _
    constructor
    · intro r hr
      simp only [Option.some.injEq] at hr
      linarith
    · intro r hr
      simp only [Option.some.injEq] at hr
      constructor <;> linarith
  obtain ⟨S, hS, hw, hd, hname, -⟩ := (C52_init 3 "cylinder" { hollow := some (1/2), radius := some 2 }).1 hv
  refine ⟨S, ⟨fun _ => 1/3, fun k => (k.getD 1 0 : ℝ) + 1, fun _ => by norm_num⟩, hS, hw, by rw [hname]; simp, fun _ => Or.inl (by omega), ?_⟩
  intro i _ bd hbd
  unfold normalNorm
  simp only [List.getD_cons_succ, List.getD_cons_zero, Finset.sum_const, Finset.card_range, nsmul_eq_mul]
  have : (0 : ℝ) < bd := by exact_mod_cast hbd
  positivity

end Causets
