import Verif.Model.LightCone
import Verif.Props.Flat
import Verif.Props.Edges
import Verif.Props.Surfaces
import Mathlib.Analysis.Convex.Combination

/-! # C83 — causal cones of flat spacetimes drawn by `ConePlotter` -/

namespace Causets

/-! ## Specification -/

/-- **Specification.** The parts of a polygon with rows of NaN (`none`) between them. -/
def partsOf : List (Option (ℝ × ℝ)) → List (List (ℝ × ℝ))
  | [] => [[]]
  | none :: t => [] :: partsOf t
  | some p :: t => match partsOf t with
    | [] => [[p]]
    | q :: qs => (p :: q) :: qs

/-- **Specification.** The region covered by a polygon with convex parts. -/
def region (rows : List (Option (ℝ × ℝ))) : Set (ℝ × ℝ) := {p | ∃ part ∈ partsOf rows, p ∈ convexHull ℝ {q | q ∈ part}}

/-- **Specification.** The points causally after `o` (before `o`) up to the time `ts`, for a causality function. -/
def futureCone (c : Point → Point → Bool × Bool) (o : Point) (ts : ℝ) : Set Point := {q | (c o q).1 = true ∧ q 0 ≤ ts}
def pastCone (c : Point → Point → Bool × Bool) (o : Point) (ts : ℝ) : Set Point := {q | (c q o).1 = true ∧ ts ≤ q 0}

/-- **Specification.** The image of a set of points in a plot of the dimensions `d0` and `d1`. -/
def shadow (d0 d1 : ℕ) (S : Set Point) : Set (ℝ × ℝ) := (fun q => (q d0, q d1)) '' S

/-- **Specification.** The part of the plot, in which the coordinate `i` (shown along the axis with the dimension `i`) differs from the one of `o` by at most its period, if any. -/
def window (M : FlatSpacetime) (d0 d1 : ℕ) (o : Point) : Set (ℝ × ℝ) :=
  {p | (∀ _ : d0 ≠ 0, M.periods (d0 - 1) > 0 → |p.1 - o d0| ≤ M.periods (d0 - 1)) ∧
    (∀ _ : d1 ≠ 0, M.periods (d1 - 1) > 0 → |p.2 - o d1| ≤ M.periods (d1 - 1))}

/-- **Specification.** `q` is on the light cone of `o` in Minkowski spacetime. -/
def LightLike (dim : ℕ) (o q : Point) : Prop := ∑ i ∈ Finset.Ico 1 dim, (q i - o i) ^ 2 = (q 0 - o 0) ^ 2

/-- **Specification.** The point of the spacetime at the time `ts` with the coordinates `v` in the dimensions `dims` (which may include the time 0), and the other
coordinates of `o`. -/
def pointAt (o : Point) (ts : ℝ) (dims : List ℕ) (v : List ℝ) : Point := fun j => match dims.idxOf? j with
  | some k => v.getD k 0
  | none => if j = 0 then ts else o j

/-! ## Polygons -/

theorem partsOf_append_none (a b : List (Option (ℝ × ℝ))) : partsOf (a ++ none :: b) = partsOf a ++ partsOf b := by
  induction a with
  | nil => rfl
  | cons x t ih =>
    cases x with
    | none => simp [partsOf, ih]
    | some p =>
      simp only [List.cons_append, partsOf, ih]
      have hne : partsOf t ≠ [] := by
        cases t with
        | nil => simp [partsOf]
        | cons y u => cases y <;> simp [partsOf]; split <;> simp
      cases h : partsOf t with
      | nil => exact absurd h hne
      | cons q qs => simp

theorem partsOf_map_some (l : List (ℝ × ℝ)) : partsOf (l.map some) = [l] := by
  induction l with
  | nil => rfl
  | cons x t ih => simp [partsOf, ih]

theorem partsOf_joinParts (l : List (List (ℝ × ℝ))) (h : l ≠ []) : partsOf (joinParts (l.map (·.map some))) = l := by
  induction l with
  | nil => exact absurd rfl h
  | cons p t ih =>
    cases t with
    | nil => simp [joinParts, partsOf_map_some]
    | cons q u =>
      simp only [List.map_cons, joinParts] at ih ⊢
      rw [List.append_assoc, List.singleton_append, partsOf_append_none, partsOf_map_some, ih (by simp)]
      simp

theorem convex_comb3 {S : Set (ℝ × ℝ)} (hS : Convex ℝ S) {a b c : ℝ × ℝ} (ha : a ∈ S) (hb : b ∈ S) (hc : c ∈ S) {u v w : ℝ} (hu : 0 ≤ u) (hv : 0 ≤ v) (hw : 0 ≤ w)
    (h : u + v + w = 1) : u • a + v • b + w • c ∈ S := by
  have := hS.sum_mem (t := Finset.univ) (w := ![u, v, w]) (z := ![a, b, c]) (by intro i _; fin_cases i <;> simpa) (by simp [Fin.sum_univ_three, h])
    (by intro i _; fin_cases i <;> simpa)
  simpa [Fin.sum_univ_three] using this

/-- the triangle with the apex `(t0, y0)` that opens along the first axis -/
theorem triangle_time_first (t0 ts y0 r sgn : ℝ) (hs : sgn = 1 ∨ sgn = -1) (hr : r = sgn * (ts - t0)) (hpos : 0 < r) (p : ℝ × ℝ) :
    p ∈ convexHull ℝ {q | q ∈ [(t0, y0), (ts, y0 - r), (ts, y0 + r), (t0, y0)]} ↔
      0 ≤ sgn * (p.1 - t0) ∧ sgn * (p.1 - t0) ≤ r ∧ |p.2 - y0| ≤ sgn * (p.1 - t0) := by
  have hss : sgn * sgn = 1 := by rcases hs with rfl | rfl <;> norm_num
  constructor
  · intro h
    have hconv : Convex ℝ {p : ℝ × ℝ | 0 ≤ sgn * (p.1 - t0) ∧ sgn * (p.1 - t0) ≤ r ∧ |p.2 - y0| ≤ sgn * (p.1 - t0)} := by
      intro a ha b hb u v hu hv huv
      obtain ⟨a1, a2, a3⟩ := ha
      obtain ⟨b1, b2, b3⟩ := hb
      have e : sgn * ((u • a + v • b).1 - t0) = u * (sgn * (a.1 - t0)) + v * (sgn * (b.1 - t0)) := by
        simp only [Prod.fst_add, Prod.smul_fst, smul_eq_mul]
        have : t0 = u * t0 + v * t0 := by rw [← add_mul, huv, one_mul]
        linear_combination (sgn * -1) * this
      have e2 : (u • a + v • b).2 - y0 = u * (a.2 - y0) + v * (b.2 - y0) := by
        simp only [Prod.snd_add, Prod.smul_snd, smul_eq_mul]
        have : y0 = u * y0 + v * y0 := by rw [← add_mul, huv, one_mul]
        linear_combination -1 * this
      refine ⟨?_, ?_, ?_⟩
      · show 0 ≤ sgn * ((u • a + v • b).1 - t0)
        rw [e]; positivity
      · show sgn * ((u • a + v • b).1 - t0) ≤ r
        rw [e]
        have : r = u * r + v * r := by rw [← add_mul, huv, one_mul]
        rw [this]
        exact add_le_add (mul_le_mul_of_nonneg_left a2 hu) (mul_le_mul_of_nonneg_left b2 hv)
      · show |(u • a + v • b).2 - y0| ≤ sgn * ((u • a + v • b).1 - t0)
        rw [e, e2]
        rw [abs_le] at *
        constructor <;> nlinarith
    refine convexHull_min ?_ hconv h
    intro q hq
    have hr0 : sgn * (ts - t0) = r := hr.symm
    simp only [List.mem_cons, List.not_mem_nil, or_false, Set.mem_setOf_eq] at hq ⊢
    rcases hq with rfl | rfl | rfl | rfl
    · simp [hpos.le]
    · dsimp only; rw [hr0]
      refine ⟨hpos.le, le_rfl, ?_⟩
      rw [show y0 - r - y0 = -r by ring, abs_neg, abs_of_pos hpos]
    · dsimp only; rw [hr0]
      refine ⟨hpos.le, le_rfl, ?_⟩
      rw [show y0 + r - y0 = r by ring, abs_of_pos hpos]
    · simp [hpos.le]
  · rintro ⟨h1, h2, h3⟩
    rw [abs_le] at h3
    have key := convex_comb3 (convex_convexHull ℝ {q | q ∈ [(t0, y0), (ts, y0 - r), (ts, y0 + r), (t0, y0)]}) (a := (t0, y0)) (b := (ts, y0 - r)) (c := (ts, y0 + r))
      (subset_convexHull _ _ (by simp)) (subset_convexHull _ _ (by simp)) (subset_convexHull _ _ (by simp))
      (u := 1 - sgn * (p.1 - t0) / r) (v := (sgn * (p.1 - t0) - (p.2 - y0)) / (2 * r)) (w := (sgn * (p.1 - t0) + (p.2 - y0)) / (2 * r))
      (by rw [sub_nonneg, div_le_one hpos]; exact h2) (div_nonneg (by linarith) (by linarith)) (div_nonneg (by linarith) (by linarith)) (by field_simp; ring)
    convert key using 1
    have hne : r ≠ 0 := hpos.ne'
    have hts : ts - t0 = sgn * r := by rw [hr, ← mul_assoc, hss, one_mul]
    ext
    · simp only [Prod.fst_add, Prod.smul_fst, smul_eq_mul]
      field_simp
      have : ts = t0 + sgn * r := by linarith
      rw [this]
      linear_combination (-2 * (p.1 - t0) * r) * hss
    · simp only [Prod.snd_add, Prod.smul_snd, smul_eq_mul]
      field_simp
      ring

theorem swap_hull (l : List (ℝ × ℝ)) (p : ℝ × ℝ) : p ∈ convexHull ℝ {q | q ∈ l} ↔ p.swap ∈ convexHull ℝ {q | q ∈ l.map Prod.swap} := by
  have h := LinearMap.image_convexHull (LinearEquiv.prodComm ℝ ℝ ℝ).toLinearMap {q | q ∈ l}
  have e : (LinearEquiv.prodComm ℝ ℝ ℝ).toLinearMap '' {q | q ∈ l} = {q | q ∈ l.map Prod.swap} := by
    ext q; simp [List.mem_map]
  rw [e] at h
  rw [← h]
  constructor
  · intro hp; exact ⟨p, hp, rfl⟩
  · rintro ⟨q, hq, hqp⟩
    have : q.swap = p.swap := hqp
    have : q = p := Prod.swap_injective this
    exact this ▸ hq

theorem triangle_time_second (t0 ts x0 r sgn : ℝ) (hs : sgn = 1 ∨ sgn = -1) (hr : r = sgn * (ts - t0)) (hpos : 0 < r) (p : ℝ × ℝ) :
    p ∈ convexHull ℝ {q | q ∈ [(x0, t0), (x0 + r, ts), (x0 - r, ts), (x0, t0)]} ↔
      0 ≤ sgn * (p.2 - t0) ∧ sgn * (p.2 - t0) ≤ r ∧ |p.1 - x0| ≤ sgn * (p.2 - t0) := by
  rw [swap_hull]
  have := triangle_time_first t0 ts x0 r sgn hs hr hpos p.swap
  simp only [Prod.fst_swap, Prod.snd_swap] at this
  rw [← this]
  have e : {q | q ∈ [(x0, t0), (x0 + r, ts), (x0 - r, ts), (x0, t0)].map Prod.swap} = {q | q ∈ [(t0, x0), (ts, x0 - r), (ts, x0 + r), (t0, x0)]} := by
    ext q; simp; tauto
  rw [e]

theorem mem_region_join (l : List (List (ℝ × ℝ))) (h : l ≠ []) (p : ℝ × ℝ) :
    p ∈ region (joinParts (l.map (·.map some))) ↔ ∃ part ∈ l, p ∈ convexHull ℝ {q | q ∈ part} := by
  unfold region
  rw [partsOf_joinParts l h]; rfl

/-! ## Periodic directions -/

theorem axisPeriod_eq (M : FlatSpacetime) (i : ℕ) (hi : i ≠ 0) : M.axisPeriod i = M.periods (i - 1) := by
  unfold FlatSpacetime.axisPeriod FlatSpacetime.periods
  by_cases h : M.isPeriodic = true <;> simp [h, hi]

theorem axisPeriod_zero (M : FlatSpacetime) : M.axisPeriod 0 = 0 := by simp [FlatSpacetime.axisPeriod]

theorem axisShifts_zero : axisShifts 0 = [0] := by simp [axisShifts, test]

/-- the shifts by -k, 0 and k attain the distance along a periodic direction -/
theorem exists_shift (k d τ : ℝ) (hd : k > 0 → |d| ≤ k) : (∃ s ∈ axisShifts k, |d + s| ≤ τ) ↔ periodicDelta k d ≤ τ := by
  unfold axisShifts
  by_cases hk : k > 0
  · rw [if_pos (by simpa [test] using hk)]
    constructor
    · rintro ⟨s, hs, h⟩
      refine le_trans ?_ h
      simp only [List.mem_cons, List.not_mem_nil, or_false] at hs
      rcases hs with rfl | rfl | rfl
      · have := periodicDelta_le hk (hd hk) (-1); push_cast at this; simpa [sub_eq_add_neg] using this
      · have := periodicDelta_le hk (hd hk) 0; simpa using this
      · have := periodicDelta_le hk (hd hk) 1; push_cast at this; simpa using this
    · intro h
      have hd' := hd hk
      unfold periodicDelta at h
      rw [if_pos hk, min_le_iff] at h
      rcases h with h | h
      · exact ⟨0, by simp, by simpa using h⟩
      · rcases le_total 0 d with h0 | h0
        · rw [abs_of_nonneg h0] at h hd'
          refine ⟨-k, by simp, ?_⟩
          rw [abs_of_nonpos (by linarith)]; linarith
        · rw [abs_of_nonpos h0] at h hd'
          refine ⟨k, by simp, ?_⟩
          rw [abs_of_nonneg (by linarith)]; linarith
  · rw [if_neg (by simpa [test] using hk)]
    unfold periodicDelta
    rw [if_neg hk]; simp

theorem periodicDelta_zero (k : ℝ) : periodicDelta k 0 = 0 := by
  unfold periodicDelta; split
  · next h => simp [h.le]
  · simp

theorem distSq_symm (M : FlatSpacetime) (x y : Point) : M.distSq x y = M.distSq y x := by
  unfold FlatSpacetime.distSq
  refine Finset.sum_congr rfl fun i _ => ?_
  unfold periodicDelta; rw [abs_sub_comm]

/-- the cone, seen in the time and one spatial direction -/
theorem cone_shadow (M : FlatSpacetime) {i : ℕ} (hi : 1 ≤ i) (hid : i < M.dim) (o : Point) {t x τ : ℝ} (hτ : τ = |t - o 0|) (hw : M.periods (i - 1) > 0 → |x - o i| ≤ M.periods (i - 1)) :
    (∃ q : Point, q 0 = t ∧ q i = x ∧ M.distSq o q ≤ τ ^ 2) ↔ periodicDelta (M.periods (i - 1)) (x - o i) ≤ τ := by
  have hnn := periodicDelta_nonneg (p := M.periods (i - 1)) (d := x - o i) hw
  have hτ0 : 0 ≤ τ := hτ ▸ abs_nonneg _
  constructor
  · rintro ⟨q, h0, h1, h2⟩
    have : (periodicDelta (M.periods (i - 1)) (q i - o i)) ^ 2 ≤ M.distSq o q :=
      Finset.single_le_sum (f := fun i => (periodicDelta (M.periods (i - 1)) (q i - o i)) ^ 2) (fun i _ => sq_nonneg _) (Finset.mem_Ico.2 ⟨hi, hid⟩)
    rw [h1] at this
    exact le_of_sq_le_sq (this.trans h2) hτ0
  · intro h
    refine ⟨fun j => if j = 0 then t else if j = i then x else o j, by simp, by simp [show i ≠ 0 by omega], ?_⟩
    unfold FlatSpacetime.distSq
    rw [Finset.sum_eq_single_of_mem i (Finset.mem_Ico.2 ⟨hi, hid⟩)]
    · simp only [show i ≠ 0 by omega, if_false, if_true]
      exact pow_le_pow_left₀ hnn h 2
    · intro j hj hji
      have hj0 : j ≠ 0 := by have := (Finset.mem_Ico.1 hj).1; omega
      simp [hj0, hji, periodicDelta_zero]

theorem timeAxis_first (i : ℕ) : coneTimeAxis [0, i] = 0 := by simp [coneTimeAxis, List.idxOf?, List.findIdx?_cons]
theorem timeAxis_second (i : ℕ) (hi : i ≠ 0) : coneTimeAxis [i, 0] = 1 := by simp [coneTimeAxis, List.idxOf?, List.findIdx?_cons, hi]
theorem timeAxis_none (i j : ℕ) (hi : i ≠ 0) (hj : j ≠ 0) : coneTimeAxis [i, j] = -1 := by simp [coneTimeAxis, List.idxOf?, List.findIdx?_cons, hi, hj]

/-- both orders of the axes at once: the drawn region in terms of the time `t` and the position `x` -/
theorem flat_region (junk : ℕ → Option (ℝ × ℝ)) (M : FlatSpacetime) (i : ℕ) (hi : 1 ≤ i) (sgn : ℝ) (hs : sgn = 1 ∨ sgn = -1) (n : ℤ) (o : Point)
    (ts : ℝ) (hr : 0 < sgn * (ts - o 0)) :
    (∃ rows, flatCone junk M [0, i] sgn n o ts = .ok (some (.polygon rows)) ∧ ∀ t x, (M.periods (i - 1) > 0 → |x - o i| ≤ M.periods (i - 1)) →
      ((t, x) ∈ region rows ↔ 0 ≤ sgn * (t - o 0) ∧ sgn * (t - o 0) ≤ sgn * (ts - o 0) ∧ periodicDelta (M.periods (i - 1)) (x - o i) ≤ sgn * (t - o 0))) ∧
    (∃ rows, flatCone junk M [i, 0] sgn n o ts = .ok (some (.polygon rows)) ∧ ∀ t x, (M.periods (i - 1) > 0 → |x - o i| ≤ M.periods (i - 1)) →
      ((x, t) ∈ region rows ↔ 0 ≤ sgn * (t - o 0) ∧ sgn * (t - o 0) ≤ sgn * (ts - o 0) ∧ periodicDelta (M.periods (i - 1)) (x - o i) ≤ sgn * (t - o 0))) := by
  have hi0 : i ≠ 0 := by omega
  have hne : axisShifts (M.axisPeriod i) ≠ [] := by unfold axisShifts; split <;> simp
  constructor
  · refine ⟨_, rfl, fun t x hw => ?_⟩
    have e : (flatShifts2 M 0 i).map (fun s => flatPart junk (coneTimeAxis [0, i]) (sgn * (ts - o 0)) ts (coneSampling n) (o 0, o i) s) =
        ((axisShifts (M.axisPeriod i)).map (fun s => [(o 0, o i - s), (ts, o i - s - sgn * (ts - o 0)), (ts, o i - s + sgn * (ts - o 0)), (o 0, o i - s)])).map (·.map some) := by
      simp only [flatShifts2, axisPeriod_zero, axisShifts_zero, List.flatMap_cons, List.flatMap_nil, List.append_nil, List.map_map]
      refine List.map_congr_left fun s _ => ?_
      simp only [Function.comp, flatPart, timeAxis_first, if_true, sub_zero, List.map_cons, List.map_nil]
      rw [show o i - sgn * (ts - o 0) - s = o i - s - sgn * (ts - o 0) by ring, show o i + sgn * (ts - o 0) - s = o i - s + sgn * (ts - o 0) by ring]
    simp only [e]
    rw [mem_region_join _ (by simpa using hne)]
    simp only [List.mem_map, exists_exists_and_eq_and]
    have h := fun s => triangle_time_first (o 0) ts (o i - s) (sgn * (ts - o 0)) sgn hs rfl hr (t, x)
    simp only [h]
    rw [← exists_shift _ _ _ hw, ← axisPeriod_eq M i hi0]
    constructor
    · rintro ⟨s, hs, h1, h2, h3⟩; exact ⟨h1, h2, s, hs, by rwa [show x - o i + s = x - (o i - s) by ring]⟩
    · rintro ⟨h1, h2, s, hs, h3⟩; exact ⟨s, hs, h1, h2, by rwa [show x - o i + s = x - (o i - s) by ring] at h3⟩
  · refine ⟨_, rfl, fun t x hw => ?_⟩
    have e : (flatShifts2 M i 0).map (fun s => flatPart junk (coneTimeAxis [i, 0]) (sgn * (ts - o 0)) ts (coneSampling n) (o i, o 0) s) =
        ((axisShifts (M.axisPeriod i)).map (fun s => [(o i - s, o 0), (o i - s + sgn * (ts - o 0), ts), (o i - s - sgn * (ts - o 0), ts), (o i - s, o 0)])).map (·.map some) := by
      simp only [flatShifts2, axisPeriod_zero, axisShifts_zero, List.map_cons, List.map_nil]
      rw [List.map_flatMap, List.map_map, List.flatMap_def]
      simp only [List.map_cons, List.map_nil]
      rw [← List.flatMap_def, ← List.map_eq_flatMap]
      refine List.map_congr_left fun s _ => ?_
      simp only [Function.comp, flatPart, timeAxis_second i hi0, if_true, sub_zero, List.map_cons, List.map_nil]
      rw [show o i - sgn * (ts - o 0) - s = o i - s - sgn * (ts - o 0) by ring, show o i + sgn * (ts - o 0) - s = o i - s + sgn * (ts - o 0) by ring]
      simp
    simp only [e]
    rw [mem_region_join _ (by simpa using hne)]
    simp only [List.mem_map, exists_exists_and_eq_and]
    have h := fun s => triangle_time_second (o 0) ts (o i - s) (sgn * (ts - o 0)) sgn hs rfl hr (x, t)
    simp only [h]
    rw [← exists_shift _ _ _ hw, ← axisPeriod_eq M i hi0]
    constructor
    · rintro ⟨s, hs, h1, h2, h3⟩; exact ⟨h1, h2, s, hs, by rwa [show x - o i + s = x - (o i - s) by ring]⟩
    · rintro ⟨h1, h2, s, hs, h3⟩; exact ⟨s, hs, h1, h2, by rwa [show x - o i + s = x - (o i - s) by ring] at h3⟩

/-- **C83, plots of time and one spatial direction.** For every flat spacetime of any dimension and any periods, every event with coordinates `o`, every direction `i`, either
order of the axes and every later (earlier) time `ts`: `ConePlotter` draws a polygon, and the region drawn is exactly the image of the points that the causality function
of the spacetime (without its tolerance) reports as causally after (before) the event up to the time `ts`, within one period. -/
theorem C83_flat_time (junk : ℕ → Option (ℝ × ℝ)) (M : FlatSpacetime) (d0 d1 : ℕ) (hd : (d0 = 0 ∧ 1 ≤ d1 ∧ d1 < M.dim) ∨ (d1 = 0 ∧ 1 ≤ d0 ∧ d0 < M.dim)) (n : ℤ) (o : Point)
    (ts : ℝ) :
    (o 0 < ts → ∃ rows, coneGeom junk (.flat M) [d0, d1] 1 n o ts = .ok (some (.polygon rows)) ∧
      region rows ∩ window M d0 d1 o = shadow d0 d1 (futureCone (M.causality 0) o ts) ∩ window M d0 d1 o) ∧
    (ts < o 0 → ∃ rows, coneGeom junk (.flat M) [d0, d1] (-1) n o ts = .ok (some (.polygon rows)) ∧
      region rows ∩ window M d0 d1 o = shadow d0 d1 (pastCone (M.causality 0) o ts) ∩ window M d0 d1 o) := by
  have hM1 : 1 ≤ M.dim := by omega
  have fut : ∀ (i : ℕ), 1 ≤ i → i < M.dim → ∀ t x, (M.periods (i - 1) > 0 → |x - o i| ≤ M.periods (i - 1)) →
      ((∃ q, q ∈ futureCone (M.causality 0) o ts ∧ q 0 = t ∧ q i = x) ↔
        0 ≤ 1 * (t - o 0) ∧ 1 * (t - o 0) ≤ 1 * (ts - o 0) ∧ periodicDelta (M.periods (i - 1)) (x - o i) ≤ 1 * (t - o 0)) := by
    intro i hi hid t x hw
    simp only [one_mul]
    constructor
    · rintro ⟨q, ⟨h1, h2⟩, h3, h4⟩
      rw [flat_exact M o q hM1, h3] at h1
      refine ⟨h1.1, by linarith, ?_⟩
      exact (cone_shadow M hi hid o (abs_of_nonneg h1.1).symm hw).1 ⟨q, h3, h4, h1.2⟩
    · rintro ⟨h1, h2, h3⟩
      obtain ⟨q, h4, h5, h6⟩ := (cone_shadow M hi hid o (abs_of_nonneg h1).symm hw).2 h3
      refine ⟨q, ⟨?_, by linarith⟩, h4, h5⟩
      rw [flat_exact M o q hM1, h4]; exact ⟨h1, h6⟩
  have pst : ∀ (i : ℕ), 1 ≤ i → i < M.dim → ∀ t x, (M.periods (i - 1) > 0 → |x - o i| ≤ M.periods (i - 1)) →
      ((∃ q, q ∈ pastCone (M.causality 0) o ts ∧ q 0 = t ∧ q i = x) ↔
        0 ≤ -1 * (t - o 0) ∧ -1 * (t - o 0) ≤ -1 * (ts - o 0) ∧ periodicDelta (M.periods (i - 1)) (x - o i) ≤ -1 * (t - o 0)) := by
    intro i hi hid t x hw
    constructor
    · rintro ⟨q, ⟨h1, h2⟩, h3, h4⟩
      rw [flat_exact M q o hM1, h3, distSq_symm] at h1
      refine ⟨by linarith, by linarith, ?_⟩
      refine (cone_shadow M hi hid o ?_ hw).1 ⟨q, h3, h4, ?_⟩
      · rw [abs_of_nonpos (by linarith)]; ring
      · rw [show (-1 * (t - o 0)) ^ 2 = (o 0 - t) ^ 2 by ring]; exact h1.2
    · rintro ⟨h1, h2, h3⟩
      obtain ⟨q, h4, h5, h6⟩ := (cone_shadow M hi hid o (t := t) (τ := -1 * (t - o 0)) (by rw [abs_of_nonpos (by linarith)]; ring) hw).2 h3
      refine ⟨q, ⟨?_, by linarith⟩, h4, h5⟩
      rw [flat_exact M q o hM1, h4, distSq_symm]
      exact ⟨by linarith, by rw [show (-1 * (t - o 0)) ^ 2 = (o 0 - t) ^ 2 by ring] at h6; exact h6⟩
  rcases hd with ⟨rfl, hi, hid⟩ | ⟨rfl, hi, hid⟩
  · constructor
    · intro hts
      obtain ⟨⟨rows, h1, h2⟩, -⟩ := flat_region junk M d1 hi 1 (Or.inl rfl) n o ts (by linarith)
      refine ⟨rows, h1, ?_⟩
      ext ⟨t, x⟩
      simp only [Set.mem_inter_iff, and_congr_left_iff]
      intro hw
      have hw' := hw.2 (by omega)
      rw [h2 t x hw', ← fut d1 hi hid t x hw']
      simp only [shadow, Set.mem_image, Prod.mk.injEq]
    · intro hts
      obtain ⟨⟨rows, h1, h2⟩, -⟩ := flat_region junk M d1 hi (-1) (Or.inr rfl) n o ts (by linarith)
      refine ⟨rows, h1, ?_⟩
      ext ⟨t, x⟩
      simp only [Set.mem_inter_iff, and_congr_left_iff]
      intro hw
      have hw' := hw.2 (by omega)
      rw [h2 t x hw', ← pst d1 hi hid t x hw']
      simp only [shadow, Set.mem_image, Prod.mk.injEq]
  · constructor
    · intro hts
      obtain ⟨-, ⟨rows, h1, h2⟩⟩ := flat_region junk M d0 hi 1 (Or.inl rfl) n o ts (by linarith)
      refine ⟨rows, h1, ?_⟩
      ext ⟨x, t⟩
      simp only [Set.mem_inter_iff, and_congr_left_iff]
      intro hw
      have hw' := hw.1 (by omega)
      rw [h2 t x hw', ← fut d0 hi hid t x hw']
      simp only [shadow, Set.mem_image, Prod.mk.injEq]
      exact exists_congr fun q => and_congr_right fun _ => and_comm
    · intro hts
      obtain ⟨-, ⟨rows, h1, h2⟩⟩ := flat_region junk M d0 hi (-1) (Or.inr rfl) n o ts (by linarith)
      refine ⟨rows, h1, ?_⟩
      ext ⟨x, t⟩
      simp only [Set.mem_inter_iff, and_congr_left_iff]
      intro hw
      have hw' := hw.1 (by omega)
      rw [h2 t x hw', ← pst d0 hi hid t x hw']
      simp only [shadow, Set.mem_image, Prod.mk.injEq]
      exact exists_congr fun q => and_congr_right fun _ => and_comm

/-- **C83, Minkowski spacetime.** Without periods the region drawn is the image of the whole Minkowski cone. -/
theorem C83_minkowski_time (junk : ℕ → Option (ℝ × ℝ)) (M : FlatSpacetime) (hnp : M.isPeriodic = false) (d0 d1 : ℕ)
    (hd : (d0 = 0 ∧ 1 ≤ d1 ∧ d1 < M.dim) ∨ (d1 = 0 ∧ 1 ≤ d0 ∧ d0 < M.dim)) (n : ℤ) (o : Point) (ts : ℝ) :
    (o 0 < ts → ∃ rows, coneGeom junk (.flat M) [d0, d1] 1 n o ts = .ok (some (.polygon rows)) ∧ region rows = shadow d0 d1 {q | MinkLe M.dim o q ∧ q 0 ≤ ts}) ∧
    (ts < o 0 → ∃ rows, coneGeom junk (.flat M) [d0, d1] (-1) n o ts = .ok (some (.polygon rows)) ∧ region rows = shadow d0 d1 {q | MinkLe M.dim q o ∧ ts ≤ q 0}) := by
  have hM1 : 1 ≤ M.dim := by omega
  have hwin : window M d0 d1 o = Set.univ := by
    ext p; simp [window, FlatSpacetime.periods, hnp]
  have h := C83_flat_time junk M d0 d1 hd n o ts
  simp only [hwin, Set.inter_univ, futureCone, pastCone, C43_minkowski M hnp _ _ hM1] at h
  exact h

/-! ## Plots without a time axis, and in three dimensions -/

theorem mem_joinParts (l : List (List (Option (ℝ × ℝ)))) (v : ℝ × ℝ) : some v ∈ joinParts l ↔ ∃ p ∈ l, some v ∈ p := by
  induction l with
  | nil => simp [joinParts]
  | cons p t ih =>
    cases t with
    | nil => simp [joinParts]
    | cons q u => simp only [joinParts, List.mem_append, List.mem_singleton, reduceCtorEq, or_false, false_or, ih, List.mem_cons, exists_eq_or_imp, List.not_mem_nil]

theorem coneSampling_sides (n : ℤ) : sides (coneSampling n : ℤ) = sides n := by
  unfold sides coneSampling
  split_ifs <;> omega

/-- a shift is a period times an integer -/
theorem shift_int (M : FlatSpacetime) (d : ℕ) (hd : d ≠ 0) {s : ℝ} (hs : s ∈ axisShifts (M.axisPeriod d)) :
    ∃ k : ℤ, |k| ≤ 1 ∧ ∀ x : ℝ, (if M.periods (d - 1) > 0 then x + k * M.periods (d - 1) else x) = x - s := by
  rw [axisPeriod_eq M d hd] at hs
  unfold axisShifts at hs
  by_cases hk : M.periods (d - 1) > 0
  · rw [if_pos (by simpa [test] using hk)] at hs
    simp only [List.mem_cons, List.not_mem_nil, or_false] at hs
    rcases hs with rfl | rfl | rfl
    · exact ⟨1, by simp, fun x => by rw [if_pos hk]; push_cast; ring⟩
    · exact ⟨0, by simp, fun x => by rw [if_pos hk]; push_cast; ring⟩
    · exact ⟨-1, by simp, fun x => by rw [if_pos hk]; push_cast; ring⟩
  · rw [if_neg (by simpa [test] using hk)] at hs
    simp only [List.mem_cons, List.not_mem_nil, or_false] at hs
    exact ⟨0, by simp, fun x => by rw [if_neg hk, hs, sub_zero]⟩

theorem pointAt2 (o : Point) (ts : ℝ) (d0 d1 : ℕ) (h : d0 ≠ d1) (a b : ℝ) :
    pointAt o ts [d0, d1] [a, b] = fun j => if j = d0 then a else if j = d1 then b else if j = 0 then ts else o j := by
  funext j
  unfold pointAt
  by_cases h0 : j = d0
  · subst h0; simp [List.idxOf?, List.findIdx?_cons]
  · by_cases h1 : j = d1
    · subst h1; simp [List.idxOf?, List.findIdx?_cons, h0, Ne.symm h0]
    · simp [List.idxOf?, List.findIdx?_cons, h0, h1, Ne.symm h0, Ne.symm h1]

theorem pointAt3 (o : Point) (ts : ℝ) (d0 d1 d2 : ℕ) (h : d0 ≠ d1) (h' : d0 ≠ d2) (h'' : d1 ≠ d2) (a b c : ℝ) :
    pointAt o ts [d0, d1, d2] [a, b, c] = fun j => if j = d0 then a else if j = d1 then b else if j = d2 then c else if j = 0 then ts else o j := by
  funext j
  unfold pointAt
  by_cases h0 : j = d0
  · subst h0; simp [List.idxOf?, List.findIdx?_cons]
  · by_cases h1 : j = d1
    · subst h1; simp [List.idxOf?, List.findIdx?_cons, h0, Ne.symm h0]
    · by_cases h2 : j = d2
      · subst h2; simp [List.idxOf?, List.findIdx?_cons, h0, Ne.symm h0, h1, Ne.symm h1]
      · simp [List.idxOf?, List.findIdx?_cons, h0, h1, h2, Ne.symm h0, Ne.symm h1, Ne.symm h2]

/-- **C83, plots of two spatial directions.** Every vertex drawn is on the light cone, at the time `ts`, of an image of the event by at most one period in each
plotted direction (of the event itself, if the spacetime is not periodic); there is one closed regular polygon of the given number of sides for every such image. -/
theorem C83_flat_space (junk : ℕ → Option (ℝ × ℝ)) (M : FlatSpacetime) (d0 d1 : ℕ) (h0 : 1 ≤ d0) (h0' : d0 < M.dim) (h1 : 1 ≤ d1) (h1' : d1 < M.dim) (hne : d0 ≠ d1)
    (sgn : ℝ) (hs : sgn = 1 ∨ sgn = -1) (n : ℤ) (o : Point) (ts : ℝ) (hr : 0 < sgn * (ts - o 0)) :
    ∃ rows, coneGeom junk (.flat M) [d0, d1] sgn n o ts = .ok (some (.polygon rows)) ∧
      (∀ v, some v ∈ rows → ∃ k : ℕ → ℤ, (∀ i, |k i| ≤ 1) ∧ LightLike M.dim (image M.periods k o) (pointAt o ts [d0, d1] [v.1, v.2])) ∧
      ∃ parts : List (List (Option (ℝ × ℝ))), rows = joinParts parts ∧ (∀ part ∈ parts, ∃ c,
        IsRing (circleCurve c (ts - o 0)) (sides n) c ((ts - o 0) ^ 2 * Real.sin (2 * Real.pi / sides n)) part) ∧
        parts.length = (if M.periods (d0 - 1) > 0 then 3 else 1) * (if M.periods (d1 - 1) > 0 then 3 else 1) := by
  have hrr : (sgn * (ts - o 0)) ^ 2 = (ts - o 0) ^ 2 := by rcases hs with rfl | rfl <;> ring
  have hcc : ∀ c, circleCurve c (sgn * (ts - o 0)) = circleCurve c (ts - o 0) := fun c => by unfold circleCurve; rw [hrr]
  have hta := timeAxis_none d0 d1 (by omega) (by omega)
  have hring : ∀ s : ℝ × ℝ, IsRing (circleCurve (o d0 - s.1, o d1 - s.2) (ts - o 0)) (sides n) (o d0 - s.1, o d1 - s.2) ((ts - o 0) ^ 2 * Real.sin (2 * Real.pi / sides n))
      (flatPart junk (coneTimeAxis [d0, d1]) (sgn * (ts - o 0)) ts (coneSampling n) (o d0, o d1) s) := by
    intro s
    have := (C55_circle junk (o d0 - s.1, o d1 - s.2) (sgn * (ts - o 0)) 0 (coneSampling n) hr.ne').1 rfl
    rw [coneSampling_sides, hrr, hcc] at this
    simpa [flatPart, hta] using this
  refine ⟨_, rfl, fun v hv => ?_, _, rfl, ?_, ?_⟩
  · rw [mem_joinParts] at hv
    obtain ⟨part, hpart, hv⟩ := hv
    obtain ⟨s, hsm, rfl⟩ := List.mem_map.1 hpart
    obtain ⟨hlen, -, hcur, -⟩ := hring s
    obtain ⟨k, hk, hkv⟩ := List.getElem_of_mem hv
    obtain ⟨p, hp, hpk⟩ := hcur k (by omega)
    rw [List.getElem?_eq_getElem hk, hkv] at hpk
    obtain rfl : v = p := by simpa using hpk
    simp only [flatShifts2, List.mem_flatMap, List.mem_map] at hsm
    obtain ⟨x, hx, y, hy, rfl⟩ := hsm
    obtain ⟨kx, hkx, hkx'⟩ := shift_int M d0 (by omega) hx
    obtain ⟨ky, hky, hky'⟩ := shift_int M d1 (by omega) hy
    refine ⟨fun i => if i = d0 then kx else if i = d1 then ky else 0, fun i => by dsimp only; split_ifs <;> simp [*], ?_⟩
    unfold LightLike
    rw [pointAt2 o ts d0 d1 hne]
    have himg : ∀ i, image M.periods (fun i => if i = d0 then kx else if i = d1 then ky else 0) o i =
        if i = d0 then o d0 - x else if i = d1 then o d1 - y else o i := by
      intro i
      unfold image
      by_cases hi0 : i = d0
      · subst hi0; simp only [h0, true_and, if_true]; exact hkx' _
      · by_cases hi1 : i = d1
        · subst hi1; simp only [h1, true_and, hi0, if_false, if_true]; exact hky' _
        · simp [hi0, hi1]
    simp only [himg]
    rw [← Finset.sum_subset (s₁ := {d0, d1}) (by intro i hi; simp only [Finset.mem_insert, Finset.mem_singleton] at hi; rw [Finset.mem_Ico]; omega)
      (by
        intro i hi hni
        simp only [Finset.mem_insert, Finset.mem_singleton, not_or] at hni
        have := (Finset.mem_Ico.1 hi).1
        simp [hni.1, hni.2, show i ≠ 0 by omega]), Finset.sum_pair hne]
    have hp' : (v.1 - (o d0 - x)) ^ 2 + (v.2 - (o d1 - y)) ^ 2 = (ts - o 0) ^ 2 := hp
    simp [Ne.symm hne, show (0 : ℕ) ≠ d0 by omega, show (0 : ℕ) ≠ d1 by omega, hp']
  · intro part hpart
    obtain ⟨s, hsm, rfl⟩ := List.mem_map.1 hpart
    exact ⟨_, hring s⟩
  · rw [List.length_map, flatShifts2, axisPeriod_eq M d0 (by omega), axisPeriod_eq M d1 (by omega)]
    unfold axisShifts
    by_cases e0 : M.periods (d0 - 1) > 0 <;> by_cases e1 : M.periods (d1 - 1) > 0 <;> simp [e0, e1, test]

theorem timeAxis3_last (i j : ℕ) (hi : i ≠ 0) (hj : j ≠ 0) : coneTimeAxis [i, j, 0] = 2 := by simp [coneTimeAxis, List.idxOf?, List.findIdx?_cons, hi, hj]
theorem timeAxis3_first (i j : ℕ) : coneTimeAxis [0, i, j] = 0 := by simp [coneTimeAxis, List.idxOf?, List.findIdx?_cons]
theorem timeAxis3_none (i j k : ℕ) (hi : i ≠ 0) (hj : j ≠ 0) (hk : k ≠ 0) : coneTimeAxis [i, j, k] = -1 := by
  simp [coneTimeAxis, List.idxOf?, List.findIdx?_cons, hi, hj, hk]

/-- **C83, plots in three dimensions (partial).** Three spatial directions: all points of all surfaces are on the light cone, at the time `ts`, of an image of the event.  Two
spatial directions and the time along the last axis: all points of all surfaces are on the light cone of an image of the event, with times between the
event and `ts`, and both the event itself and points at `ts` are reached.  Missing: the time along another axis (see `C83_flat_3d_refuted`). -/
theorem C83_flat_3d_partial (junk : ℕ → Option (ℝ × ℝ)) (M : FlatSpacetime) (d0 d1 d2 : ℕ) (h0 : 1 ≤ d0) (h0' : d0 < M.dim) (h1 : 1 ≤ d1) (h1' : d1 < M.dim)
    (hne : d0 ≠ d1) (sgn : ℝ) (hs : sgn = 1 ∨ sgn = -1) (n : ℤ) (o : Point) (ts : ℝ) :
    (1 ≤ d2 → d2 < M.dim → d0 ≠ d2 → d1 ≠ d2 → ∃ patches, coneGeom junk (.flat M) [d0, d1, d2] sgn n o ts = .ok (some (.surfaces patches)) ∧
      ∀ P ∈ patches, ∀ p ∈ P.points, ∃ k : ℕ → ℤ, (∀ i, |k i| ≤ 1) ∧
        LightLike M.dim (image M.periods k o) (pointAt o ts [d0, d1, d2] [p.1, p.2.1, p.2.2])) ∧
    (∃ patches, coneGeom junk (.flat M) [d0, d1, 0] sgn n o ts = .ok (some (.surfaces patches)) ∧
      (∀ P ∈ patches, ∀ p ∈ P.points, ∃ k : ℕ → ℤ, (∀ i, |k i| ≤ 1) ∧
        LightLike M.dim (image M.periods k o) (pointAt o ts [d0, d1, 0] [p.1, p.2.1, p.2.2]) ∧ ∃ u, 0 ≤ u ∧ u ≤ 1 ∧ p.2.2 = o 0 + u * (ts - o 0)) ∧
      (∃ P ∈ patches, (o d0, o d1, o 0) ∈ P.points ∧ (o d0 + sgn * (ts - o 0), o d1, ts) ∈ P.points)) := by
  have hss : sgn * sgn = 1 := by rcases hs with rfl | rfl <;> norm_num
  have hrr : (sgn * (ts - o 0)) ^ 2 = (ts - o 0) ^ 2 := by rcases hs with rfl | rfl <;> ring
  constructor
  · intro h2 h2' hne02 hne12
    refine ⟨_, rfl, fun P hP p hp => ?_⟩
    obtain ⟨s, hsm, rfl⟩ := List.mem_map.1 hP
    simp only [timeAxis3_none d0 d1 d2 (by omega) (by omega) (by omega), Int.reduceNeg, Int.reduceLT, if_true] at hp
    have hsph := (C69_ball _ _ _).1 hp
    simp only [sphere3, Set.mem_setOf_eq, hrr] at hsph
    simp only [flatShifts3, List.mem_flatMap, List.mem_map] at hsm
    obtain ⟨x, hx, y, hy, z, hz, rfl⟩ := hsm
    obtain ⟨kx, hkx, hkx'⟩ := shift_int M d0 (by omega) hx
    obtain ⟨ky, hky, hky'⟩ := shift_int M d1 (by omega) hy
    obtain ⟨kz, hkz, hkz'⟩ := shift_int M d2 (by omega) hz
    refine ⟨fun i => if i = d0 then kx else if i = d1 then ky else if i = d2 then kz else 0, fun i => by dsimp only; split_ifs <;> simp [*], ?_⟩
    unfold LightLike
    rw [pointAt3 o ts d0 d1 d2 hne hne02 hne12]
    have himg : ∀ i, image M.periods (fun i => if i = d0 then kx else if i = d1 then ky else if i = d2 then kz else 0) o i =
        if i = d0 then o d0 - x else if i = d1 then o d1 - y else if i = d2 then o d2 - z else o i := by
      intro i
      unfold image
      by_cases hi0 : i = d0
      · subst hi0; simp only [h0, true_and, if_true]; exact hkx' _
      · by_cases hi1 : i = d1
        · subst hi1; simp only [h1, true_and, hi0, if_false, if_true]; exact hky' _
        · by_cases hi2 : i = d2
          · subst hi2; simp only [h2, true_and, hi0, hi1, if_false, if_true]; exact hkz' _
          · simp [hi0, hi1, hi2]
    simp only [himg]
    rw [← Finset.sum_subset (s₁ := {d0, d1, d2}) (by intro i hi; simp only [Finset.mem_insert, Finset.mem_singleton] at hi; rw [Finset.mem_Ico]; omega)
      (by
        intro i hi hni
        simp only [Finset.mem_insert, Finset.mem_singleton, not_or] at hni
        have := (Finset.mem_Ico.1 hi).1
        simp [hni.1, hni.2.1, hni.2.2, show i ≠ 0 by omega]), Finset.sum_insert (by simp [hne, hne02]), Finset.sum_pair hne12]
    simp only [if_true, Ne.symm hne, Ne.symm hne02, Ne.symm hne12, if_false, show (0 : ℕ) ≠ d0 by omega, show (0 : ℕ) ≠ d1 by omega, show (0 : ℕ) ≠ d2 by omega]
    linarith
  · refine ⟨_, rfl, fun P hP p hp => ?_, ?_⟩
    · obtain ⟨s, hsm, rfl⟩ := List.mem_map.1 hP
      simp only [timeAxis3_last d0 d1 (by omega) (by omega), show ¬ ((2 : ℤ) < 0) by norm_num, if_false] at hp
      obtain ⟨u, hu0, hu1, hu2, hu3⟩ := (C69_cone_partial _ _ _ _).2 hp
      simp only [flatShifts3, List.mem_flatMap, List.mem_map, axisPeriod_zero, axisShifts_zero] at hsm
      obtain ⟨x, hx, y, hy, z, hz, rfl⟩ := hsm
      obtain rfl : z = 0 := by simpa using hz
      obtain ⟨kx, hkx, hkx'⟩ := shift_int M d0 (by omega) hx
      obtain ⟨ky, hky, hky'⟩ := shift_int M d1 (by omega) hy
      simp only [along, axisDistSq, show ¬ ((2 : ℤ) = 0) by norm_num, show ¬ ((2 : ℤ) = 1) by norm_num, if_false, sub_zero] at hu2 hu3
      have ht : p.2.2 = o 0 + u * (ts - o 0) := by rw [hu2]; rw [← mul_assoc sgn, hss, one_mul]
      refine ⟨fun i => if i = d0 then kx else if i = d1 then ky else 0, fun i => by dsimp only; split_ifs <;> simp [*], ?_, u, hu0, hu1, ht⟩
      unfold LightLike
      rw [pointAt3 o ts d0 d1 0 hne (by omega) (by omega)]
      have himg : ∀ i, image M.periods (fun i => if i = d0 then kx else if i = d1 then ky else 0) o i =
          if i = d0 then o d0 - x else if i = d1 then o d1 - y else o i := by
        intro i
        unfold image
        by_cases hi0 : i = d0
        · subst hi0; simp only [h0, true_and, if_true]; exact hkx' _
        · by_cases hi1 : i = d1
          · subst hi1; simp only [h1, true_and, hi0, if_false, if_true]; exact hky' _
          · simp [hi0, hi1]
      simp only [himg]
      rw [← Finset.sum_subset (s₁ := {d0, d1}) (by intro i hi; simp only [Finset.mem_insert, Finset.mem_singleton] at hi; rw [Finset.mem_Ico]; omega)
        (by
          intro i hi hni
          simp only [Finset.mem_insert, Finset.mem_singleton, not_or] at hni
          have := (Finset.mem_Ico.1 hi).1
          simp [hni.1, hni.2, show i ≠ 0 by omega]), Finset.sum_pair hne]
      simp only [if_true, Ne.symm hne, if_false, show (0 : ℕ) ≠ d0 by omega, show (0 : ℕ) ≠ d1 by omega]
      rw [ht]
      rw [hu3]
      have : (u * (sgn * (ts - o 0))) ^ 2 = u ^ 2 * (ts - o 0) ^ 2 := by rw [mul_pow, hrr]
      rw [this]; ring
    · have hz : ∀ k, (0 : ℝ) ∈ axisShifts k := fun k => by unfold axisShifts; split <;> simp
      have hmem : ((0 : ℝ), (0 : ℝ), (0 : ℝ)) ∈ flatShifts3 M d0 d1 0 := by
        simp only [flatShifts3, List.mem_flatMap, List.mem_map]
        exact ⟨0, hz _, 0, hz _, 0, hz _, rfl⟩
      refine ⟨_, List.mem_map.2 ⟨_, hmem, rfl⟩, ?_, ?_⟩
      · simp only [timeAxis3_last d0 d1 (by omega) (by omega), show ¬ ((2 : ℤ) < 0) by norm_num, if_false, sub_zero]
        refine ⟨0, by simp [openConeSurface], 0, by simp [openConeSurface, samplingRows], ?_⟩
        simp [openConeSurface, rotateAxis]
      · simp only [timeAxis3_last d0 d1 (by omega) (by omega), show ¬ ((2 : ℤ) < 0) by norm_num, if_false, sub_zero]
        refine ⟨1, by simp [openConeSurface], 0, by simp [openConeSurface, samplingRows], ?_⟩
        have : sgn * (sgn * (ts - o 0)) = ts - o 0 := by rw [← mul_assoc, hss, one_mul]
        simp [openConeSurface, rotateAxis, linspace2pi, this]
        ring

/-- **C83, refuted for the time along the first axis of a plot in three dimensions.** In three-dimensional Minkowski spacetime with the default order of the dimensions, the cone
of the event at the time -1 and the position (0, 0) up to the time 0 has a point (at the time 1) that is not on the light cone of the event. -/
theorem C83_flat_3d_refuted (junk : ℕ → Option (ℝ × ℝ)) (n : ℤ) : ∃ M : FlatSpacetime, FlatSpacetime.init 3 (.float 0) = .ok M ∧
    ∃ patches, coneGeom junk (.flat M) [0, 1, 2] 1 n (fun i => if i = 0 then -1 else 0) 0 = .ok (some (.surfaces patches)) ∧
      ∃ P ∈ patches, ∃ p ∈ P.points, ¬ LightLike 3 (fun i => if i = 0 then -1 else 0) (fun i => if i = 0 then p.1 else if i = 1 then p.2.1 else p.2.2) := by
  refine ⟨⟨3, false, none⟩, by simp [FlatSpacetime.init], _, rfl, ?_⟩
  refine ⟨_, List.mem_map.2 ⟨(0, 0, 0), by simp [flatShifts3, FlatSpacetime.axisPeriod, axisShifts, test], rfl⟩, (1, 0, 0), ?_, ?_⟩
  · simp only [timeAxis3_first, lt_irrefl, if_false]
    refine ⟨1, by simp [openConeSurface], 0, by simp [openConeSurface, samplingRows], ?_⟩
    simp [openConeSurface, rotateAxis, linspace2pi]
  · unfold LightLike
    norm_num [Finset.sum_Ico_succ_top]

/-! ## The hypotheses can be met -/

/-- the two-dimensional cylinder of circumference 2 -/
example : ∃ M : FlatSpacetime, FlatSpacetime.init 2 (.float 2) = .ok M ∧ M.periods 0 = 2 ∧ 1 < M.dim := by
  refine ⟨⟨2, true, some [2]⟩, by simp [FlatSpacetime.init], by simp [FlatSpacetime.periods], by simp⟩

/-- the cone of the origin up to the time 1.5 on this cylinder covers (1.25, -1) and, beyond the seam, (0.5, -1.75), but not (0.5, 1) -/
example (junk : ℕ → Option (ℝ × ℝ)) : ∃ rows, flatCone junk ⟨2, true, some [2]⟩ [0, 1] 1 (-1) (fun _ => 0) 1.5 = .ok (some (.polygon rows)) ∧
    ((1.25, -1) ∈ region rows ∧ (0.5, -1.75) ∈ region rows ∧ (0.5, 1) ∉ region rows) := by
  obtain ⟨⟨rows, h1, h2⟩, -⟩ := flat_region junk ⟨2, true, some [2]⟩ 1 le_rfl 1 (Or.inl rfl) (-1) (fun _ => 0) 1.5 (by norm_num)
  have hp : (⟨2, true, some [2]⟩ : FlatSpacetime).periods (1 - 1) = 2 := by simp [FlatSpacetime.periods]
  refine ⟨rows, h1, ?_, ?_, ?_⟩
  · rw [h2 _ _ (by rw [hp]; norm_num [abs_le]), hp]; norm_num [periodicDelta]
  · rw [h2 _ _ (by rw [hp]; norm_num [abs_le]), hp]; norm_num [periodicDelta]
  · rw [h2 _ _ (by rw [hp]; norm_num [abs_le]), hp]; norm_num [periodicDelta]

end Causets
