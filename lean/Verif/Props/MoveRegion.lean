import Verif.Props.SymmetryMaps
import Verif.Props.Units
import Verif.Props.UnitsVolume

/-! # C127 — moving the region moves the sprinkle -/

namespace Causets

/-- **Specification.** The region with another centre, moved by `v`. -/
noncomputable def CoordinateShape.moved (v : Point) (S : CoordinateShape) : CoordinateShape :=
  { S with center := S.center.mapIdx fun i c => c + v i }

theorem moved_center (v : Point) (S : CoordinateShape) {j : ℕ} (hj : j < S.center.length) : (S.moved v).center.getD j 0 = S.center.getD j 0 + v j := by
  simp only [CoordinateShape.moved, List.getD_eq_getElem?_getD, List.getElem?_mapIdx, List.getElem?_eq_getElem hj]
  rfl

/-- **C127, regions.** A point is in the region iff the moved point is in the moved region, for every kind of region. -/
theorem C127_region (v : Point) (S : CoordinateShape) (hl : S.center.length = S.dim) (hd : 1 ≤ S.dim) (x : Point) : translate v x ∈ (S.moved v).region ↔ x ∈ S.region := by
  have hc : ∀ i, i < S.dim → translate v x i - (S.moved v).centerPoint i = x i - S.centerPoint i := by
    intro i hi
    have : (S.moved v).centerPoint i = S.centerPoint i + v i := moved_center v S (hl ▸ hi)
    rw [this]
    simp only [translate]
    ring
  have hdist : ∀ a, distFrom a S.dim (S.moved v).centerPoint (translate v x) = distFrom a S.dim S.centerPoint x := by
    intro a
    unfold distFrom
    congr 1
    refine Finset.sum_congr rfl fun i hi => ?_
    rw [hc i (Finset.mem_Ico.1 hi).2]
  have hn : (S.moved v).name = S.name := rfl
  have hd' : (S.moved v).dim = S.dim := rfl
  have hr : (S.moved v).radius = S.radius := rfl
  have hh : (S.moved v).hollow = S.hollow := rfl
  have ht : (S.moved v).duration = S.duration := rfl
  have he : (S.moved v).edge = S.edge := rfl
  have hes : (S.moved v).edges = S.edges := rfl
  unfold CoordinateShape.region
  rw [hn, hd', hr, hh, ht, he, hes]
  have box : ∀ e : ℕ → ℝ, translate v x ∈ cuboidRegion S.dim (S.moved v).centerPoint e ↔ x ∈ cuboidRegion S.dim S.centerPoint e := by
    intro e
    simp only [cuboidRegion, Set.mem_setOf_eq]
    refine forall_congr' fun i => forall_congr' fun hi => ?_
    rw [hc i hi]
  split_ifs
  · simp only [ballRegion, Set.mem_setOf_eq, hdist]
  · simp only [biconeRegion, Set.mem_setOf_eq, hdist, hc 0 hd]
  · simp only [cylinderRegion, Set.mem_setOf_eq, hdist, hc 0 hd]
  · exact box _
  · exact box _

/-- **C127, volume.** The moved region has the same volume. -/
theorem C127_volume (v : Point) (S : CoordinateShape) : (S.moved v).volume = S.volume := rfl

theorem uniform_add (R : Draws) (l : List ℕ) (a b c : ℝ) : R.uniform l (a + c) (b + c) = R.uniform l a b + c := by
  unfold Draws.uniform
  ring

/-- **C127, sprinkled points.** With the same random numbers the points sprinkled into the moved region are the moved points, for balls, cylinders, cubes and cuboids. -/
theorem C127_sprinkle (R : Draws) (junk : ℕ → Point) (dim : ℕ) (hd : 1 ≤ dim) (count : ℤ) (v : Point) (hv : ∀ i, dim ≤ i → v i = 0) (S : CoordinateShape) (hl : S.center.length = dim)
    (hS : S.name = "ball" ∨ S.name = "cylinder" ∨ S.name = "cube" ∨ S.name = "cuboid") :
    sprinkleCoords R junk dim count (S.moved v) = (sprinkleCoords R junk dim count S).map fun rows => rows.map (translate v) := by
  have hc : ∀ j, j < dim → (S.moved v).center.getD j 0 = S.center.getD j 0 + v j := fun j hj => moved_center v S (hl ▸ hj)
  have hn : (S.moved v).name = S.name := rfl
  have hr : (S.moved v).radius = S.radius := rfl
  have hh : (S.moved v).hollow = S.hollow := rfl
  have ht : (S.moved v).duration = S.duration := rfl
  have he : (S.moved v).edge = S.edge := rfl
  have hes : (S.moved v).edges = S.edges := rfl
  have e1 : sprinkleCuboid R dim (S.moved v) = fun i => translate v (sprinkleCuboid R dim S i) := by
    funext i j
    simp only [sprinkleCuboid, translate, hn, he, hes]
    by_cases hj : j < dim
    · rw [if_pos hj, if_pos hj, hc j hj, ← uniform_add]
      congr 1 <;> ring
    · rw [if_neg hj, if_neg hj, hv j (not_lt.1 hj), zero_add]
  have e2 : (S.name = "ball" ∨ S.name = "cylinder") → sprinkleBall R junk dim (S.moved v) = fun i => translate v (sprinkleBall R junk dim S i) := by
    intro hb
    funext i j
    simp only [sprinkleBall, translate, hn, hr, hh, ht]
    by_cases hj : j < (if S.name = "ball" then 0 else 1)
    · rw [if_pos hj, if_pos hj]
      have hnb : ¬ S.name = "ball" := fun h => by simp [h] at hj
      rw [if_neg hnb] at hj
      have hcy : S.name = "cylinder" := hb.resolve_left hnb
      have h0 : j = 0 := by omega
      subst h0
      rw [if_pos hcy, if_pos hcy, hc 0 hd, ← uniform_add]
      congr 1 <;> ring
    · rw [if_neg hj, if_neg hj]
      by_cases hj2 : j < dim
      · rw [if_pos hj2, if_pos hj2, hc j hj2]
        ring
      · rw [if_neg hj2, if_neg hj2, hv j (not_lt.1 hj2), zero_add]
  unfold sprinkleCoords
  rw [hn, hr]
  by_cases hneg : count < 0
  · rw [if_pos hneg, if_pos hneg]
    rfl
  rw [if_neg hneg, if_neg hneg]
  dsimp only
  rcases hS with h | h | h | h
  · rw [e2 (Or.inl h)]
    simp only [h]
    have b1 : ¬ ("ball" = "cube" ∨ "ball" = "cuboid") := by decide
    have b2 : ¬ ("ball" = "diamond") := by decide
    rw [if_neg b1, if_neg b1]
    simp only [b2, and_false, if_false, true_or, or_true, if_true]
    split_ifs <;> simp [Except.map, Function.comp_def]
  · rw [e2 (Or.inr h)]
    simp only [h]
    have b1 : ¬ ("cylinder" = "cube" ∨ "cylinder" = "cuboid") := by decide
    have b2 : ¬ ("cylinder" = "diamond") := by decide
    rw [if_neg b1, if_neg b1]
    simp only [b2, and_false, if_false, true_or, or_true, if_true]
    split_ifs <;> simp [Except.map, Function.comp_def]
  · rw [e1]
    simp [h, Except.map, Function.comp_def]
  · rw [e1]
    simp [h, Except.map, Function.comp_def]

/-- the state with all points moved -/
def SprState.movedBy (f : Point → Point) (s : SprState) : SprState := { s with world := s.world.moved f }

/-- **C127, sprinkling.** In a spacetime that is invariant under the translation, sprinkling into the moved region gives the same causal set at the moved points: the same new events, order, links and
intensity, the same result or exception. -/
theorem C127_causet (c : Point → Point → Bool × Bool) (it : Iter) (R : Draws) (junk : ℕ → Point) (dim : ℕ) (hd : 1 ≤ dim) (count : ℤ) (v : Point) (hv : ∀ i, dim ≤ i → v i = 0)
    (hinv : ∀ x y, c (translate v x) (translate v y) = c x y) (S : CoordinateShape) (hl : S.center.length = dim)
    (hS : S.name = "ball" ∨ S.name = "cylinder" ∨ S.name = "cube" ∨ S.name = "cuboid") (s : SprState) :
    let r := SprState.sprinkle c it R junk dim S count s
    SprState.sprinkle c it R junk dim (S.moved v) count (s.movedBy (translate v)) = (r.1, r.2.movedBy (translate v)) := by
  intro r
  simp only [r]
  unfold SprState.sprinkle
  split
  · rfl
  · rw [C127_sprinkle R junk dim hd count v hv S hl hS]
    cases sprinkleCoords R junk dim count S with
    | error x => rfl
    | ok rows =>
      dsimp only [Except.map]
      unfold SprState.superCreate
      have := C122_create c c (translate v) Set.univ (fun x _ y _ => hinv x y) it s.events rows (fun _ _ => trivial) none true s.world (fun _ _ _ _ => trivial)
      dsimp only at this
      dsimp only [SprState.movedBy]
      rw [this]
      dsimp only
      split <;> rfl

/-- **C127, flat spacetimes** and translations of time in black holes are invariant, with the tolerance of the library. -/
theorem C127_flat (eps : ℝ) (M : FlatSpacetime) (v x y : Point) : M.causality eps (translate v x) (translate v y) = M.causality eps x y :=
  C122_flat eps M (translate v) (fun x y => by simp [translate]) x y

/-- **C127 is refuted for bicones**, whose points the code does not compute (C48): the rows are whatever is in memory. -/
theorem C127_refuted (R : Draws) : ∃ (S : CoordinateShape) (junk : ℕ → Point) (v : Point), S.name = "bicone" ∧ S.center.length = 2 ∧ (∀ i, 2 ≤ i → v i = 0) ∧
    sprinkleCoords R junk 2 1 (S.moved v) ≠ (sprinkleCoords R junk 2 1 S).map fun rows => rows.map (translate v) := by
  refine ⟨{ dim := 2, name := "bicone", center := [0, 0], radius := some 1, hollow := some 0 }, fun _ _ => 0, fun i => if i = 0 then 1 else 0, rfl, rfl, fun i hi => if_neg (by omega), fun h => ?_⟩
  have e : ∀ S : CoordinateShape, S.name = "bicone" → sprinkleCoords R (fun _ _ => 0) 2 1 S = .ok [fun _ => 0] := by
    intro S hS
    simp [sprinkleCoords, hS]
  rw [e _ rfl, e _ rfl] at h
  have h1 := List.head_eq_of_cons_eq (Except.ok.inj h)
  have h2 := congrFun h1 0
  simp [translate] at h2

/-- The hypotheses of `C127_causet` are met by a cylinder in three-dimensional Minkowski spacetime that is moved in time. -/
example : (∀ i, 3 ≤ i → (fun i => if i = 0 then 5 else 0 : Point) i = 0) ∧
    (∀ x y, (⟨3, false, none⟩ : FlatSpacetime).causality causalityEps (translate (fun i => if i = 0 then 5 else 0) x) (translate (fun i => if i = 0 then 5 else 0) y) =
      (⟨3, false, none⟩ : FlatSpacetime).causality causalityEps x y) ∧
    (({ dim := 3, name := "cylinder", center := [0, 0, 0], radius := some 1, hollow := some 0, duration := some 2 } : CoordinateShape).center.length = 3) :=
  ⟨fun i hi => if_neg (by omega), fun x y => C127_flat causalityEps ⟨3, false, none⟩ _ x y, rfl⟩

end Causets
