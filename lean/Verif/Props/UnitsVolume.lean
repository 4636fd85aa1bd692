import Verif.Props.Units
import Verif.Props.Volume

/-! # C123 — volumes and length scales in other units -/

namespace Causets

open CoordinateShape

theorem prod_map_mul (k : ℝ) : ∀ l : List ℝ, (l.map fun a => k * a).prod = k ^ l.length * l.prod
  | [] => by simp
  | a :: l => by
    rw [List.map_cons, List.prod_cons, prod_map_mul k l, List.length_cons, List.prod_cons]
    ring

/-- **C123, volumes.** The volume of the rescaled region is the volume times the power `k ^ Dim`. -/
theorem C123_volume (k : ℝ) (S : CoordinateShape) (hS : S.WellFormed) : (S.rescale k).volume = k ^ S.dim * S.volume := by
  obtain ⟨hd, -, h⟩ := hS
  have split : k ^ S.dim = k ^ (S.dim - 1) * k := by rw [← pow_succ]; congr 1; omega
  rcases h with ⟨r, x, -, -, -, e⟩ | ⟨r, x, -, -, -, e⟩ | ⟨r, x, t, -, -, -, -, e⟩ | ⟨a, -, e⟩ | ⟨as, hl, -, e⟩
  · rw [e]
    by_cases hx : test (x > 0) = true
    · simp only [volume, CoordinateShape.rescale, String.reduceEq, if_true, if_false, Option.map_some, Option.getD_some, hx, Bool.false_eq_true]
      rw [mul_left_comm x k r, mul_pow, mul_pow k (x * r)]
      ring
    · simp only [volume, CoordinateShape.rescale, String.reduceEq, if_true, if_false, Option.map_some, Option.getD_some, hx, Bool.false_eq_true]
      rw [mul_pow]
      ring
  · rw [e]
    by_cases hx : test (x > 0) = true
    · simp only [volume, CoordinateShape.rescale, String.reduceEq, if_true, if_false, Option.map_some, Option.getD_some, hx, Bool.false_eq_true]
      rw [mul_left_comm x k r, mul_pow, mul_pow k (x * r)]
      ring
    · simp only [volume, CoordinateShape.rescale, String.reduceEq, if_true, if_false, Option.map_some, Option.getD_some, hx, Bool.false_eq_true]
      rw [mul_pow]
      ring
  · rw [split, e]
    by_cases hx : test (x > 0) = true
    · simp only [volume, CoordinateShape.rescale, String.reduceEq, if_true, if_false, Option.map_some, Option.getD_some, hx, Bool.false_eq_true]
      rw [mul_left_comm x k r, mul_pow, mul_pow k (x * r)]
      ring
    · simp only [volume, CoordinateShape.rescale, String.reduceEq, if_true, if_false, Option.map_some, Option.getD_some, hx, Bool.false_eq_true]
      rw [mul_pow]
      ring
  · rw [e]
    simp only [volume, CoordinateShape.rescale, String.reduceEq, if_true, if_false, Option.map_some, Option.getD_some]
    rw [mul_pow]
  · rw [← hl, e]
    simp only [volume, CoordinateShape.rescale, String.reduceEq, if_true, if_false, Option.map_some, Option.getD_some]
    exact prod_map_mul k as

/-- **C123, length scale.** The length scale of a sprinkled causet is `k` times the length scale (the intensity is not negative); the density is divided by `k ^ Dim`. -/
theorem C123_lengthScale (k : ℝ) (hk : 0 < k) (S : CoordinateShape) (hS : S.WellFormed) (s : SprState) (hi : 0 ≤ s.intensity) :
    SprState.lengthScale (S.rescale k) s = k * SprState.lengthScale S s ∧ SprState.density (S.rescale k) s = SprState.density S s / k ^ S.dim := by
  have hd := hS.1
  have hV := (C53_volume S hS).2.1
  have hd0 : (S.dim : ℝ) ≠ 0 := by exact_mod_cast (by omega : S.dim ≠ 0)
  unfold SprState.lengthScale SprState.density
  rw [C123_volume k S hS]
  constructor
  · show (k ^ S.dim * S.volume / s.intensity) ^ (1 / (S.dim : ℝ)) = _
    rw [mul_div_assoc, Real.mul_rpow (by positivity) (by positivity), ← Real.rpow_natCast k, ← Real.rpow_mul hk.le, mul_one_div_cancel hd0, Real.rpow_one]
  · have : k ^ S.dim ≠ 0 := by positivity
    field_simp

end Causets
