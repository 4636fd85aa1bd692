import Verif.Props.Shapes

/-! # C54 — limits and maximal edges of coordinate shapes (shapes.py) -/

namespace Causets
open CoordinateShape

theorem getD_mem_real (l : List ℝ) {i : ℕ} (hi : i < l.length) : l.getD i 0 ∈ l := by
  simp only [List.getD, List.getElem?_eq_getElem hi, Option.getD_some]
  exact List.getElem_mem _

theorem distFrom_nonneg (k dim : ℕ) (c x : Point) : 0 ≤ distFrom k dim c x := Real.sqrt_nonneg _

theorem abs_le_distFrom {k dim : ℕ} (c x : Point) {i : ℕ} (hk : k ≤ i) (hi : i < dim) : |x i - c i| ≤ distFrom k dim c x := by
  rw [distFrom, ← Real.sqrt_sq_eq_abs]
  refine Real.sqrt_le_sqrt ?_
  exact Finset.single_le_sum (f := fun j => (x j - c j) ^ 2) (fun j _ => sq_nonneg _) (by simp [hk, hi])

theorem distFrom_self (k dim : ℕ) (c : Point) : distFrom k dim c c = 0 := by simp [distFrom]

/-- the point `c` moved by `s` in direction `i` -/
noncomputable def moved (c : Point) (i : ℕ) (s : ℝ) : Point := Function.update c i (c i + s)

theorem moved_sub (c : Point) (i : ℕ) (s : ℝ) (j : ℕ) : moved c i s j - c j = if j = i then s else 0 := by
  by_cases h : j = i
  · subst h; simp [moved]
  · simp [moved, h]

theorem distFrom_moved {k dim : ℕ} (c : Point) {i : ℕ} (hk : k ≤ i) (hi : i < dim) (s : ℝ) : distFrom k dim c (moved c i s) = |s| := by
  rw [distFrom, ← Real.sqrt_sq_eq_abs]
  congr 1
  simp only [moved_sub]
  rw [Finset.sum_eq_single i]
  · simp
  · intro j _ h; simp [h]
  · intro h; simp [hk, hi] at h

theorem distFrom_moved_zero {k dim : ℕ} (c : Point) {i : ℕ} (hk : i < k) (s : ℝ) : distFrom k dim c (moved c i s) = 0 := by
  rw [distFrom, Finset.sum_eq_zero, Real.sqrt_zero]
  intro j hj
  rw [moved_sub, if_neg (by simp at hj; omega)]; simp

/-- the half width of the shape in direction `i`, as used by `Limits` -/
noncomputable def halfWidth (S : CoordinateShape) (i : ℕ) : ℝ :=
  if i = 0 ∧ S.name = "cylinder" then S.duration.getD 0 / 2
  else if S.name = "cube" then S.edge.getD 0 / 2
  else if S.name = "cuboid" then (S.edges.getD []).getD i 0 / 2
  else S.radius.getD 0

theorem limits_ok (S : CoordinateShape) (i : ℕ) (hi : i < S.dim) :
    S.limits i = .ok (-halfWidth S i + S.centerPoint i, halfWidth S i + S.centerPoint i) := by
  unfold limits halfWidth
  rw [if_neg (by omega)]
  simp [centerPoint]

/-- every point of the region is within the half width -/
theorem region_le (S : CoordinateShape) (hS : S.WellFormed) {x : Point} (hx : x ∈ S.region) {i : ℕ} (hi : i < S.dim) :
    |x i - S.centerPoint i| ≤ halfWidth S i := by
  obtain ⟨hd, hc, h⟩ := hS
  rcases h with ⟨r, h, h1, h2, h3, hS⟩ | ⟨r, h, h1, h2, h3, hS⟩ | ⟨r, h, t, h1, h2, h3, h4, hS⟩ | ⟨a, h1, hS⟩ | ⟨as, h1, h2, hS⟩
  · rw [hS] at hx ⊢
    simp only [region, halfWidth, ballRegion, Set.mem_setOf_eq, Option.getD_some, String.reduceEq, if_true, if_false, and_false] at hx ⊢
    exact (abs_le_distFrom _ _ (Nat.zero_le _) (by rw [hS] at hi; exact hi)).trans hx.2
  · rw [hS] at hx ⊢
    simp only [region, halfWidth, biconeRegion, Set.mem_setOf_eq, Option.getD_some, String.reduceEq, if_true, if_false, and_false] at hx ⊢
    have h0 := distFrom_nonneg 1 S.dim S.centerPoint x
    rcases Nat.eq_zero_or_pos i with rfl | hp
    · have := hx.2
      change _ + distFrom 1 S.dim S.centerPoint x ≤ r at this
      linarith
    · have h5 := abs_le_distFrom (k := 1) S.centerPoint x hp hi
      have := hx.2
      change _ + distFrom 1 S.dim S.centerPoint x ≤ r at this
      have h6 := abs_nonneg (x 0 - S.centerPoint 0)
      change |x 0 - S.centerPoint 0| + _ ≤ r at this
      change |x i - S.centerPoint i| ≤ r
      linarith
  · rw [hS] at hx ⊢
    simp only [region, halfWidth, cylinderRegion, Set.mem_setOf_eq, Option.getD_some, String.reduceEq, if_true, if_false, and_true] at hx ⊢
    by_cases h0 : i = 0
    · subst h0; rw [if_pos rfl]; exact hx.1
    · rw [if_neg h0]
      exact (abs_le_distFrom (k := 1) _ _ (by omega) (by rw [hS] at hi; exact hi)).trans hx.2.2
  · rw [hS] at hx ⊢
    simp only [region, halfWidth, cuboidRegion, Set.mem_setOf_eq, Option.getD_some, String.reduceEq, if_true, if_false, and_false] at hx ⊢
    exact hx i (by rw [hS] at hi; exact hi)
  · rw [hS] at hx ⊢
    simp only [region, halfWidth, cuboidRegion, Set.mem_setOf_eq, Option.getD_some, String.reduceEq, if_true, if_false, and_false] at hx ⊢
    exact hx i (by rw [hS] at hi; exact hi)

theorem halfWidth_pos (S : CoordinateShape) (hS : S.WellFormed) {i : ℕ} (hi : i < S.dim) : 0 < halfWidth S i := by
  obtain ⟨hd, hc, h⟩ := hS
  rcases h with ⟨r, h, h1, h2, h3, hS⟩ | ⟨r, h, h1, h2, h3, hS⟩ | ⟨r, h, t, h1, h2, h3, h4, hS⟩ | ⟨a, h1, hS⟩ | ⟨as, h1, h2, hS⟩
  · rw [hS]; simpa [halfWidth] using h1
  · rw [hS]; simpa [halfWidth] using h1
  · rw [hS]
    by_cases h0 : i = 0 <;> simp [halfWidth, h0, h1, h4]
  · rw [hS]; simpa [halfWidth] using h1
  · rw [hS]
    have : 0 < as.getD i 0 := by
      exact h2 _ (getD_mem_real as (by omega))
    simpa [halfWidth] using this

/-- both ends are attained -/
theorem region_attained (S : CoordinateShape) (hS : S.WellFormed) {i : ℕ} (hi : i < S.dim)
    (hne : ¬ (S.name = "cylinder" ∧ S.dim = 1 ∧ 0 < S.hollow.getD 0)) (s : ℝ) (hs : |s| = halfWidth S i) :
    ∃ x ∈ S.region, x i = s + S.centerPoint i := by
  obtain ⟨hd, hc, h⟩ := hS
  have hmv : ∀ c : Point, moved c i s i = s + c i := fun c => by simp [moved, add_comm]
  have hmv0 : ∀ c : Point, i ≠ 0 → moved c i s 0 = c 0 := fun c h => by simp [moved, Ne.symm h]
  rcases h with ⟨r, h, h1, h2, h3, hS⟩ | ⟨r, h, h1, h2, h3, hS⟩ | ⟨r, h, t, h1, h2, h3, h4, hS⟩ | ⟨a, h1, hS⟩ | ⟨as, h1, h2, hS⟩
  · refine ⟨moved S.centerPoint i s, ?_, hmv _⟩
    rw [hS] at hs ⊢
    simp only [region, halfWidth, ballRegion, Set.mem_setOf_eq, Option.getD_some, String.reduceEq, if_true, if_false, and_false] at hs ⊢
    change h * r ≤ distFrom 0 S.dim S.centerPoint (moved S.centerPoint i s) ∧ distFrom 0 S.dim S.centerPoint (moved S.centerPoint i s) ≤ r
    rw [distFrom_moved _ (Nat.zero_le _) hi, hs]
    exact ⟨by nlinarith, le_refl _⟩
  · refine ⟨moved S.centerPoint i s, ?_, hmv _⟩
    rw [hS] at hs ⊢
    simp only [region, halfWidth, biconeRegion, Set.mem_setOf_eq, Option.getD_some, String.reduceEq, if_true, if_false, and_false] at hs ⊢
    change h * r ≤ |moved S.centerPoint i s 0 - S.centerPoint 0| + distFrom 1 S.dim S.centerPoint (moved S.centerPoint i s) ∧
      |moved S.centerPoint i s 0 - S.centerPoint 0| + distFrom 1 S.dim S.centerPoint (moved S.centerPoint i s) ≤ r
    rcases Nat.eq_zero_or_pos i with rfl | hp
    · rw [distFrom_moved_zero _ (by omega), hmv, add_sub_cancel_right, hs]
      exact ⟨by nlinarith, by linarith⟩
    · rw [distFrom_moved _ hp hi, hmv0 _ (by omega), sub_self, abs_zero, hs]
      exact ⟨by nlinarith, by linarith⟩
  · rcases Nat.eq_zero_or_pos i with rfl | hp
    · by_cases hd1 : S.dim = 1
      · have hh0 : h = 0 := by
          rw [hS] at hne
          simp only [Option.getD_some, true_and, not_and, not_lt] at hne
          exact le_antisymm (hne hd1) h2
        refine ⟨moved S.centerPoint 0 s, ?_, hmv _⟩
        rw [hS] at hs ⊢
        simp only [region, halfWidth, cylinderRegion, Set.mem_setOf_eq, Option.getD_some, String.reduceEq, if_true, if_false, and_true] at hs ⊢
        change |moved S.centerPoint 0 s 0 - S.centerPoint 0| ≤ t / 2 ∧ h * r ≤ distFrom 1 S.dim S.centerPoint (moved S.centerPoint 0 s) ∧
          distFrom 1 S.dim S.centerPoint (moved S.centerPoint 0 s) ≤ r
        rw [distFrom_moved_zero _ (by omega), hmv, add_sub_cancel_right, hs, hh0]
        exact ⟨le_refl _, by linarith, h1.le⟩
      · -- move also in direction 1
        refine ⟨Function.update (moved S.centerPoint 1 r) 0 (s + S.centerPoint 0), ?_, by simp⟩
        rw [hS] at hs ⊢
        simp only [region, halfWidth, cylinderRegion, Set.mem_setOf_eq, Option.getD_some, String.reduceEq, if_true, if_false, and_true] at hs ⊢
        change |Function.update (moved S.centerPoint 1 r) 0 (s + S.centerPoint 0) 0 - S.centerPoint 0| ≤ t / 2 ∧
          h * r ≤ distFrom 1 S.dim S.centerPoint (Function.update (moved S.centerPoint 1 r) 0 (s + S.centerPoint 0)) ∧
          distFrom 1 S.dim S.centerPoint (Function.update (moved S.centerPoint 1 r) 0 (s + S.centerPoint 0)) ≤ r
        have e : distFrom 1 S.dim S.centerPoint (Function.update (moved S.centerPoint 1 r) 0 (s + S.centerPoint 0))
            = distFrom 1 S.dim S.centerPoint (moved S.centerPoint 1 r) := by
          unfold distFrom
          congr 1
          refine Finset.sum_congr rfl fun j hj => ?_
          rw [Function.update_of_ne (by simp at hj; omega)]
        rw [e, distFrom_moved _ (le_refl _) (by omega), Function.update_self, add_sub_cancel_right, hs, abs_of_pos h1]
        exact ⟨le_refl _, by nlinarith, le_refl _⟩
    · refine ⟨moved S.centerPoint i s, ?_, hmv _⟩
      rw [hS] at hs ⊢
      simp only [region, halfWidth, cylinderRegion, Set.mem_setOf_eq, Option.getD_some, String.reduceEq, if_true, if_false, and_true,
        Nat.pos_iff_ne_zero.1 hp] at hs ⊢
      change |moved S.centerPoint i s 0 - S.centerPoint 0| ≤ t / 2 ∧ h * r ≤ distFrom 1 S.dim S.centerPoint (moved S.centerPoint i s) ∧
        distFrom 1 S.dim S.centerPoint (moved S.centerPoint i s) ≤ r
      rw [distFrom_moved _ hp hi, hmv0 _ (by omega), sub_self, abs_zero, hs]
      exact ⟨by linarith, by nlinarith, le_refl _⟩
  · refine ⟨moved S.centerPoint i s, ?_, hmv _⟩
    rw [hS] at hs ⊢
    simp only [region, halfWidth, cuboidRegion, Set.mem_setOf_eq, Option.getD_some, String.reduceEq, if_true, if_false, and_false] at hs ⊢
    intro j hj
    change |moved S.centerPoint i s j - S.centerPoint j| ≤ a / 2
    rw [moved_sub]
    split_ifs
    · rw [hs]
    · rw [abs_zero]; linarith
  · refine ⟨moved S.centerPoint i s, ?_, hmv _⟩
    rw [hS] at hs ⊢
    simp only [region, halfWidth, cuboidRegion, Set.mem_setOf_eq, Option.getD_some, String.reduceEq, if_true, if_false, and_false] at hs ⊢
    intro j hj
    change |moved S.centerPoint i s j - S.centerPoint j| ≤ as.getD j 0 / 2
    rw [moved_sub]
    split_ifs with hji
    · rw [hs, hji]
    · rw [abs_zero]
      have : 0 < as.getD j 0 := by
        exact h2 _ (getD_mem_real as (by rw [h1]; exact hj))
      linarith

/-- **C54.** For every shape object and every integer `i`: `Limits(i)` raises ValueError if `i` is not a dimension of the shape; otherwise it
returns the least and the greatest `i`-th coordinate of all points of the region.  (The hollow cylinder in one dimension is empty.) -/
theorem C54_limits (S : CoordinateShape) (hS : S.WellFormed) (i : ℤ) :
    (i < 0 ∨ (S.dim : ℤ) ≤ i → S.limits i = .error .valueError) ∧
    (∀ k : ℕ, i = k → k < S.dim → ∃ lo hi, S.limits i = .ok (lo, hi) ∧ lo < hi ∧ (∀ x ∈ S.region, lo ≤ x k ∧ x k ≤ hi) ∧
      (¬ (S.name = "cylinder" ∧ S.dim = 1 ∧ 0 < S.hollow.getD 0) →
        IsLeast ((fun x : Point => x k) '' S.region) lo ∧ IsGreatest ((fun x : Point => x k) '' S.region) hi)) := by
  constructor
  · intro h
    unfold limits
    rw [if_pos (by omega)]
  · rintro k rfl hk
    have hb : ∀ x ∈ S.region, -halfWidth S k + S.centerPoint k ≤ x k ∧ x k ≤ halfWidth S k + S.centerPoint k := by
      intro x hx
      have := abs_le.1 (region_le S hS hx hk)
      constructor <;> linarith [this.1, this.2]
    have hp := halfWidth_pos S hS hk
    refine ⟨_, _, limits_ok S k hk, by linarith, hb, fun hne => ⟨⟨?_, ?_⟩, ⟨?_, ?_⟩⟩⟩
    · obtain ⟨x, hx, e⟩ := region_attained S hS hk hne (-halfWidth S k) (by rw [abs_neg, abs_of_pos hp])
      exact ⟨x, hx, e⟩
    · rintro _ ⟨x, hx, rfl⟩; exact (hb x hx).1
    · obtain ⟨x, hx, e⟩ := region_attained S hS hk hne (halfWidth S k) (by rw [abs_of_pos hp])
      exact ⟨x, hx, e⟩
    · rintro _ ⟨x, hx, rfl⟩; exact (hb x hx).2

theorem npTake_ok (edges : List ℝ) : ∀ (ks : List ℕ), (∀ k ∈ ks, k < edges.length) →
    npTake edges (ks.map (Nat.cast : ℕ → ℤ)) = .ok (ks.map (fun k => edges.getD k 0)) := by
  intro ks
  induction ks with
  | nil => intro _; rfl
  | cons k ks ih =>
    intro h
    have hk : k < edges.length := h k (by simp)
    have e : npIndex edges.length (k : ℤ) = .ok k := by
      unfold npIndex
      simp [hk]
    simp only [List.map_cons, npTake, e, ih (fun j hj => h j (by simp [hj]))]

theorem pyMax_spec (l : List ℝ) (hl : l ≠ []) : ∃ m ∈ l, pyMax l = .ok m ∧ ∀ x ∈ l, x ≤ m := by
  obtain ⟨a, t, rfl⟩ := List.exists_cons_of_ne_nil hl
  have : ∀ (t : List ℝ) (a : ℝ), (t.foldl max a ∈ a :: t) ∧ ∀ x ∈ a :: t, x ≤ t.foldl max a := by
    intro t
    induction t with
    | nil => intro a; simp
    | cons b t ih =>
      intro a
      obtain ⟨h1, h2⟩ := ih (max a b)
      simp only [List.foldl_cons]
      refine ⟨?_, ?_⟩
      · rcases List.mem_cons.1 h1 with h | h
        · rw [h]
          rcases max_choice a b with e | e <;> simp [e]
        · simp [h]
      · intro x hx
        have h3 := h2 (max a b) (by simp)
        rcases List.mem_cons.1 hx with rfl | hx
        · exact (le_max_left _ _).trans h3
        · rcases List.mem_cons.1 hx with rfl | hx
          · exact (le_max_right _ _).trans h3
          · exact h2 x (by simp [hx])
  exact ⟨_, (this t a).1, rfl, (this t a).2⟩

/-- **C54.** `MaxEdgeHalf(dims)` of a non-empty list of dimensions of the shape is at least half of the extent `hi - lo` (`Limits`) in each of these dimensions, and
equal to half of one of these extents, unless the shape is a cylinder and all entries of `dims` are 0 (the code then also considers the radius). -/
theorem C54_maxEdgeHalf (S : CoordinateShape) (hS : S.WellFormed) (dims : List ℕ) (hne : dims ≠ []) (hd : ∀ k ∈ dims, k < S.dim) :
    ∃ m, S.maxEdgeHalf (dims.map (Nat.cast : ℕ → ℤ)) = .ok m ∧
      (∀ k ∈ dims, ∀ lo hi, S.limits k = .ok (lo, hi) → (hi - lo) / 2 ≤ m) ∧
      (¬ (S.name = "cylinder" ∧ ∀ k ∈ dims, k = 0) → ∃ k ∈ dims, ∀ lo hi, S.limits k = .ok (lo, hi) → (hi - lo) / 2 = m) := by
  have hlim : ∀ k ∈ dims, ∀ lo hi, S.limits k = .ok (lo, hi) → (hi - lo) / 2 = halfWidth S k := by
    intro k hk lo hi h
    rw [limits_ok S k (hd k hk)] at h
    simp only [Except.ok.injEq, Prod.mk.injEq] at h
    rw [← h.1, ← h.2]; ring
  suffices ∃ m, S.maxEdgeHalf (dims.map (Nat.cast : ℕ → ℤ)) = .ok m ∧ (∀ k ∈ dims, halfWidth S k ≤ m) ∧
      (¬ (S.name = "cylinder" ∧ ∀ k ∈ dims, k = 0) → ∃ k ∈ dims, halfWidth S k = m) by
    obtain ⟨m, h1, h2, h3⟩ := this
    refine ⟨m, h1, fun k hk lo hi h => (hlim k hk lo hi h).trans_le (h2 k hk), fun h => ?_⟩
    obtain ⟨k, hk, e⟩ := h3 h
    exact ⟨k, hk, fun lo hi h => (hlim k hk lo hi h).trans e⟩
  obtain ⟨k0, hk0⟩ := List.exists_mem_of_ne_nil _ hne
  obtain ⟨hd1, hc, h⟩ := hS
  rcases h with ⟨r, h, h1, h2, h3, hS⟩ | ⟨r, h, h1, h2, h3, hS⟩ | ⟨r, h, t, h1, h2, h3, h4, hS⟩ | ⟨a, h1, hS⟩ | ⟨as, h1, h2, hS⟩
  · rw [hS]
    exact ⟨r, by simp [maxEdgeHalf], fun k _ => by simp [halfWidth], fun _ => ⟨k0, hk0, by simp [halfWidth]⟩⟩
  · rw [hS]
    exact ⟨r, by simp [maxEdgeHalf], fun k _ => by simp [halfWidth], fun _ => ⟨k0, hk0, by simp [halfWidth]⟩⟩
  · have hw0 : halfWidth S 0 = t / 2 := by rw [hS]; simp [halfWidth]
    have hw : ∀ k, k ≠ 0 → halfWidth S k = r := fun k hk => by rw [hS]; simp [halfWidth, hk]
    by_cases h0 : 0 ∈ dims
    · have : (dims.map (Nat.cast : ℕ → ℤ)).count 0 > 0 := by
        rw [gt_iff_lt, List.count_pos_iff]; exact List.mem_map.2 ⟨0, h0, rfl⟩
      refine ⟨max r (t / 2), by rw [hS]; simp [maxEdgeHalf, this], fun k _ => ?_, fun hn => ?_⟩
      · by_cases hk : k = 0
        · rw [hk, hw0]; exact le_max_right _ _
        · rw [hw k hk]; exact le_max_left _ _
      · have hn' : ∃ k ∈ dims, k ≠ 0 := by
          by_contra hcon
          push Not at hcon
          exact hn ⟨by rw [hS], hcon⟩
        obtain ⟨k, hk, hkz⟩ := hn'
        rcases max_choice r (t / 2) with e | e
        · exact ⟨k, hk, by rw [e, hw k hkz]⟩
        · exact ⟨0, h0, by rw [e, hw0]⟩
    · have hz : (dims.map (Nat.cast : ℕ → ℤ)).count 0 = 0 := by
        rw [List.count_eq_zero]
        intro hm
        obtain ⟨j, hj, e⟩ := List.mem_map.1 hm
        have : j = 0 := by exact_mod_cast e
        exact h0 (this ▸ hj)
      have hk : ∀ k ∈ dims, k ≠ 0 := fun k hk e => h0 (e ▸ hk)
      exact ⟨r, by rw [hS]; simp [maxEdgeHalf, hz], fun k hk' => (hw k (hk k hk')).le, fun _ => ⟨k0, hk0, hw k0 (hk k0 hk0)⟩⟩
  · rw [hS]
    exact ⟨a / 2, by simp [maxEdgeHalf], fun k _ => by simp [halfWidth], fun _ => ⟨k0, hk0, by simp [halfWidth]⟩⟩
  · have hw : ∀ k, halfWidth S k = as.getD k 0 / 2 := fun k => by rw [hS]; simp [halfWidth]
    obtain ⟨m, hm, e, hb⟩ := pyMax_spec (dims.map (fun k => as.getD k 0)) (by simpa using hne)
    refine ⟨m / 2, ?_, fun k hk => ?_, fun _ => ?_⟩
    · rw [hS]
      simp only [maxEdgeHalf, String.reduceEq, if_false, or_self, Option.getD_some]
      rw [npTake_ok as dims (fun k hk => by rw [h1]; exact hd k hk)]
      simp only [e]
    · rw [hw]
      have := hb (as.getD k 0) (List.mem_map.2 ⟨k, hk, rfl⟩)
      linarith
    · obtain ⟨k, hk, ek⟩ := List.mem_map.1 hm
      exact ⟨k, hk, by rw [hw, ek]⟩

/-- The exception of `C54_maxEdgeHalf` is real: for a short wide cylinder `MaxEdgeHalf([0])` is larger than half of its extent in time. -/
theorem C54_cylinder_time_only : ∃ S : CoordinateShape, S.WellFormed ∧ S.maxEdgeHalf [0] = .ok 2 ∧ S.limits 0 = .ok (-1, 1) := by
  refine ⟨⟨2, "cylinder", [0, 0], some 2, some 0, some 2, none, none⟩, ⟨by norm_num, rfl, ?_⟩, ?_, ?_⟩
  · exact Or.inr (Or.inr (Or.inl ⟨2, 0, 2, by norm_num, by norm_num, by norm_num, by norm_num, rfl⟩))
  · simp [maxEdgeHalf]
  · simp [limits]

/-- C54: a hollow bicone meets the hypotheses, and `[0, 2]` are two of its dimensions. -/
example : (⟨3, "bicone", [1, 2, 3], some 2, some (1 / 2), none, none, none⟩ : CoordinateShape).WellFormed :=
  ⟨by norm_num, rfl, Or.inr (Or.inl ⟨2, 1 / 2, by norm_num, by norm_num, by norm_num, rfl⟩)⟩

end Causets
