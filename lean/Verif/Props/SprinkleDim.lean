import Verif.Model.SprinkleDim
import Verif.Props.Sprinkle
import Mathlib.Data.List.GetD

/-! # C121 — sprinkling into a region of another dimension than the causet's -/

namespace Causets

open CoordinateShape

theorem rowsOf_ok {f : ℕ → Except Err Point} {g : ℕ → Point} (h : ∀ i, f i = .ok (g i)) : ∀ l, rowsOf f l = .ok (l.map g)
  | [] => rfl
  | i :: l => by
    unfold rowsOf
    rw [h i, rowsOf_ok h l]
    rfl

theorem rowsOf_error {f : ℕ → Except Err Point} {x : Err} (h : ∀ i, f i = .error x) {l : List ℕ} (hl : l ≠ []) : rowsOf f l = .error x := by
  cases l with
  | nil => exact absurd rfl hl
  | cons i l =>
    unfold rowsOf
    rw [h i]
    rfl

/-- **Specification.** The region of the dimension `dim` with the same parameters, whose centre continues with its last coordinate. -/
def CoordinateShape.lift (S : CoordinateShape) (dim : ℕ) : CoordinateShape :=
  { S with dim := dim, center := (List.range dim).map fun j => S.center.getD (min j (S.dim - 1)) 0 }

theorem list_sq_sum (f : ℕ → ℝ) (n : ℕ) : (((List.range n).map f).map fun z => z ^ 2).sum = ∑ k ∈ Finset.range n, f k ^ 2 := by
  rw [List.map_map]
  induction n with
  | zero => simp
  | succ n ih => rw [List.range_succ, List.map_append, List.sum_append, ih, Finset.sum_range_succ]; simp

/-- the sum of the centre and the scaled vector is assigned: the centre has the length `bd`, or one coordinate that is used for all -/
theorem center_ok (center coord : List ℝ) (c : ℕ → ℝ) (hlen : coord.length ≠ 0)
    (h : (center.length = coord.length ∧ ∀ j < coord.length, center.getD j 0 = c j) ∨ (center.length = 1 ∧ ∀ j < coord.length, center.getD 0 0 = c j)) :
    (npBroadcast (fun c v => c + v) center coord >>= npAssign coord.length) = .ok ((List.range coord.length).map fun j => c j + coord.getD j 0) := by
  have key : ∀ v : List ℝ, v.length = coord.length → (∀ j < coord.length, v.getD j 0 = c j + coord.getD j 0) →
      npAssign coord.length v = .ok ((List.range coord.length).map fun j => c j + coord.getD j 0) := by
    intro v hv hj
    unfold npAssign
    rw [if_pos hv]
    congr 1
    refine List.ext_getElem (by simp [hv]) fun j h1 h2 => ?_
    have := hj j (by omega)
    rw [List.getD_eq_getElem _ _ h1] at this
    simp [this]
  unfold npBroadcast
  by_cases hl : center.length = coord.length
  · rw [if_pos hl]
    refine key _ (by simp [hl]) fun j hj => ?_
    have hc : center.getD j 0 = c j := by
      rcases h with ⟨_, h⟩ | ⟨h1, h⟩
      · exact h j hj
      · have : j = 0 := by omega
        subst this
        exact h 0 hj
    rw [List.getD_eq_getElem _ _ (by simp [hl, hj]), List.getElem_zipWith, ← hc, List.getD_eq_getElem _ _ (by omega), List.getD_eq_getElem _ _ hj]
  · rw [if_neg hl]
    rcases h with ⟨h, _⟩ | ⟨h1, h⟩
    · exact absurd h hl
    rw [if_pos h1]
    refine key _ (by simp) fun j hj => ?_
    rw [List.getD_eq_getElem _ _ (by simpa using hj), List.getElem_map, ← h j hj, List.getD_eq_getElem _ _ hj]

/-- any other centre raises -/
theorem center_error (center coord : List ℝ) (hlen : coord.length ≠ 0) (h : center.length ≠ coord.length) (h1 : center.length ≠ 1) :
    (npBroadcast (fun c v => c + v) center coord >>= npAssign coord.length) = .error .valueError := by
  unfold npBroadcast
  rw [if_neg h, if_neg h1]
  by_cases hc : coord.length = 1
  · rw [if_pos hc]
    show npAssign coord.length _ = _
    unfold npAssign
    rw [if_neg (by simpa using h), if_neg (by simpa using h1)]
  · rw [if_neg hc]
    rfl

theorem ballRow_eq (R : Draws) (junk : ℕ → Point) (dim : ℕ) (S T : CoordinateShape) (hn : T.name = S.name) (hr : T.radius = S.radius) (hh : T.hollow = S.hollow) (hd : T.duration = S.duration)
    (h0 : T.center.getD 0 0 = S.center.getD 0 0)
    (hb : dim - (if S.name = "ball" then 0 else 1) ≠ 0)
    (h : let dstart := if S.name = "ball" then 0 else 1
      ((S.center.drop dstart).length = dim - dstart ∧ ∀ j < dim - dstart, (S.center.drop dstart).getD j 0 = T.center.getD (j + dstart) 0) ∨
      ((S.center.drop dstart).length = 1 ∧ ∀ j < dim - dstart, (S.center.drop dstart).getD 0 0 = T.center.getD (j + dstart) 0)) (i : ℕ) :
    ballRow R junk dim S i = .ok (sprinkleBall R junk dim T i) := by
  unfold ballRow sprinkleBall
  dsimp only at h ⊢
  rw [hn, hr, hh, hd, h0]
  set dstart := if S.name = "ball" then 0 else 1 with hds
  rw [if_neg hb]
  have hsq : Real.sqrt ((((List.range (dim - dstart)).map fun k => R.normal [113, i, k]).map fun z => z ^ 2).sum) = normalNorm R (dim - dstart) i := by
    unfold normalNorm
    rw [list_sq_sum]
  rw [hsq]
  generalize (if S.name = "diamond" then _ else _ : ℝ) * S.radius.getD 0 / normalNorm R (dim - dstart) i = q
  have := center_ok (S.center.drop dstart) (((List.range (dim - dstart)).map fun k => R.normal [113, i, k]).map fun z => q * z) (fun j => T.center.getD (j + dstart) 0)
    (by simpa using hb) (by simpa using h)
  simp only [List.length_map, List.length_range] at this
  rw [← bind_assoc, this]
  show Except.ok _ = Except.ok _
  congr 1
  funext j
  by_cases h1 : j < dstart
  · rw [if_pos h1, if_pos h1]
  · rw [if_neg h1, if_neg h1]
    by_cases h2 : j < dim
    · rw [if_pos h2]
      have h3 : j - dstart < dim - dstart := by omega
      rw [List.getD_eq_getElem _ _ (by simpa using h3)]
      simp only [List.getElem_map, List.getElem_range]
      rw [show j - dstart + dstart = j by omega]
      congr 1
      rw [List.getD_eq_getElem _ _ (show j - dstart < (((List.range (dim - dstart)).map fun k => R.normal [113, i, k]).map fun z => q * z).length by simpa using h3)]
      simp
    · rw [if_neg h2, List.getD_eq_default _ _ (by simp; omega)]

/-- the length of the edge of a cube or cuboid in direction `j` -/
noncomputable def CoordinateShape.edgeLen (S : CoordinateShape) (j : ℕ) : ℝ := if S.name = "cuboid" then (S.edges.getD []).getD j 0 else S.edge.getD 0

theorem cuboid_bound (S : CoordinateShape) (hl : S.center.length = S.dim) (he : S.name = "cuboid" → (S.edges.getD []).length = S.dim) (op : ℝ → ℝ → ℝ) :
    cuboidBound op S = .ok ((List.range S.dim).map fun j => op (S.center.getD j 0) (S.edgeLen j / 2)) := by
  unfold cuboidBound
  by_cases h : S.name = "cuboid"
  · rw [if_pos h]
    have he := he h
    unfold npBroadcast
    rw [if_pos (by simp [hl, he])]
    congr 1
    refine List.ext_getElem (by simp [hl, he]) fun j h1 h2 => ?_
    have hj : j < S.dim := by simpa using h2
    simp only [List.getElem_zipWith, List.getElem_map, List.getElem_range, edgeLen, if_pos h]
    rw [List.getD_eq_getElem _ _ (by omega), List.getD_eq_getElem _ _ (by omega)]
  · rw [if_neg h]
    congr 1
    refine List.ext_getElem (by simp [hl]) fun j h1 h2 => ?_
    have hj : j < S.dim := by simpa using h2
    simp only [List.getElem_map, List.getElem_range, edgeLen, if_neg h]
    rw [List.getD_eq_getElem _ _ (by omega)]

theorem getD_rangeMap (n : ℕ) (f : ℕ → ℝ) (j : ℕ) : ((List.range n).map f).getD j 0 = if j < n then f j else 0 := by
  by_cases hj : j < n
  · rw [if_pos hj, List.getD_eq_getElem _ _ (by simpa using hj)]
    simp
  · rw [if_neg hj, List.getD_eq_default _ _ (by simpa using hj)]

theorem getD_replicate_zero (n : ℕ) (v : ℝ) (j : ℕ) : (List.replicate n v).getD j 0 = if j < n then v else 0 := by
  by_cases hj : j < n
  · rw [if_pos hj, List.getD_eq_getElem _ _ (by simpa using hj)]
    simp
  · rw [if_neg hj, List.getD_eq_default _ _ (by simpa using hj)]

theorem cuboidRow_eq (R : Draws) (dim : ℕ) (S : CoordinateShape) (hl : S.center.length = S.dim) (he : S.name = "cuboid" → (S.edges.getD []).length = S.dim) (i : ℕ) :
    cuboidRow R dim S i = (npAssign dim ((List.range S.dim).map fun j => R.uniform [84, i, j] (S.center.getD j 0 - S.edgeLen j / 2) (S.center.getD j 0 + S.edgeLen j / 2))).map
      fun row => fun j => row.getD j 0 := by
  unfold cuboidRow
  have h1 := cuboid_bound S hl he (fun c e => c - e)
  have h2 := cuboid_bound S hl he (fun c e => c + e)
  rw [h1, h2]
  simp only [bind, Except.bind, List.length_map, List.length_range]
  have : ((List.range S.dim).map fun j => R.uniform [84, i, j] (((List.range S.dim).map fun j => S.center.getD j 0 - S.edgeLen j / 2).getD j 0)
      (((List.range S.dim).map fun j => S.center.getD j 0 + S.edgeLen j / 2).getD j 0)) =
      (List.range S.dim).map fun j => R.uniform [84, i, j] (S.center.getD j 0 - S.edgeLen j / 2) (S.center.getD j 0 + S.edgeLen j / 2) := by
    refine List.map_congr_left fun j hj => ?_
    have hj := List.mem_range.1 hj
    rw [List.getD_eq_getElem _ _ (by simpa using hj), List.getD_eq_getElem _ _ (by simpa using hj)]
    simp
  rw [this]
  cases npAssign dim _ <;> rfl

theorem cuboidRow_same (R : Draws) (S : CoordinateShape) (hl : S.center.length = S.dim) (he : S.name = "cuboid" → (S.edges.getD []).length = S.dim) (i : ℕ) :
    cuboidRow R S.dim S i = .ok (sprinkleCuboid R S.dim S i) := by
  rw [cuboidRow_eq R _ S hl he]
  unfold npAssign
  rw [if_pos (by simp)]
  show Except.ok _ = Except.ok _
  congr 1
  funext j
  exact getD_rangeMap S.dim _ j

theorem cuboidRow_diagonal (R : Draws) (dim : ℕ) (S : CoordinateShape) (hd : S.dim = 1) (hl : S.center.length = S.dim)
    (he : S.name = "cuboid" → (S.edges.getD []).length = S.dim) (i : ℕ) :
    cuboidRow R dim S i = .ok fun j => if j < dim then R.uniform [84, i, 0] (S.center.getD 0 0 - S.edgeLen 0 / 2) (S.center.getD 0 0 + S.edgeLen 0 / 2) else 0 := by
  rw [cuboidRow_eq R _ S hl he, hd]
  unfold npAssign
  by_cases h1 : dim = 1
  · subst h1
    rw [if_pos (by simp)]
    show Except.ok _ = Except.ok _
    congr 1
    funext j
    refine (getD_rangeMap 1 _ j).trans ?_
    by_cases hj : j < 1
    · obtain rfl : j = 0 := by omega
      rfl
    · rw [if_neg hj, if_neg hj]
  · rw [if_neg (by simp; omega), if_pos (by simp)]
    show Except.ok _ = Except.ok _
    congr 1
    funext j
    exact getD_replicate_zero dim _ j

theorem cuboidRow_error (R : Draws) (dim : ℕ) (S : CoordinateShape) (hd : S.dim ≠ 1) (hd' : S.dim ≠ dim) (hl : S.center.length = S.dim)
    (he : S.name = "cuboid" → (S.edges.getD []).length = S.dim) (i : ℕ) : cuboidRow R dim S i = .error .valueError := by
  rw [cuboidRow_eq R _ S hl he]
  unfold npAssign
  rw [if_neg (by simpa using hd'), if_neg (by simpa using hd)]
  rfl

theorem ballRow_zero (R : Draws) (junk : ℕ → Point) (dim : ℕ) (S : CoordinateShape) (hb : dim - (if S.name = "ball" then 0 else 1) = 0) (i : ℕ) :
    ballRow R junk dim S i = .error .zeroDivisionError := by
  unfold ballRow
  dsimp only
  rw [if_pos hb]

theorem ballRow_error (R : Draws) (junk : ℕ → Point) (dim : ℕ) (S : CoordinateShape) (hb : dim - (if S.name = "ball" then 0 else 1) ≠ 0)
    (h : (S.center.drop (if S.name = "ball" then 0 else 1)).length ≠ dim - (if S.name = "ball" then 0 else 1))
    (h1 : (S.center.drop (if S.name = "ball" then 0 else 1)).length ≠ 1) (i : ℕ) :
    ballRow R junk dim S i = .error .valueError := by
  unfold ballRow
  dsimp only
  rw [if_neg hb]
  generalize (if S.name = "diamond" then _ else _ : ℝ) * S.radius.getD 0 / _ = q
  have := center_error (S.center.drop (if S.name = "ball" then 0 else 1))
    (((List.range (dim - (if S.name = "ball" then 0 else 1))).map fun k => R.normal [113, i, k]).map fun z => q * z) (by simpa using hb) (by simpa using h) h1
  simp only [List.length_map, List.length_range] at this
  rw [← bind_assoc, this]
  rfl

theorem wf_edges {S : CoordinateShape} (hS : S.WellFormed) : S.name = "cuboid" → (S.edges.getD []).length = S.dim := by
  obtain ⟨-, -, h⟩ := hS
  rcases h with ⟨r, x, -, -, -, e⟩ | ⟨r, x, -, -, -, e⟩ | ⟨r, x, t, -, -, -, -, e⟩ | ⟨a, -, e⟩ | ⟨as, ha, -, e⟩ <;> rw [e] <;> intro h <;> simp at h
  simpa using ha

theorem wf_name {S : CoordinateShape} (hS : S.WellFormed) : S.name = "ball" ∨ S.name = "bicone" ∨ S.name = "cylinder" ∨ S.name = "cube" ∨ S.name = "cuboid" := by
  obtain ⟨-, -, h⟩ := hS
  rcases h with ⟨r, x, -, -, -, e⟩ | ⟨r, x, -, -, -, e⟩ | ⟨r, x, t, -, -, -, -, e⟩ | ⟨a, -, e⟩ | ⟨as, ha, -, e⟩ <;> rw [e] <;> simp

theorem lift_wf {S : CoordinateShape} (hS : S.WellFormed) (dim : ℕ) (hd : 1 ≤ dim) (hc : S.name ≠ "cuboid") : (S.lift dim).WellFormed := by
  obtain ⟨-, -, h⟩ := hS
  refine ⟨hd, by simp [lift], ?_⟩
  rcases h with ⟨r, x, h1, h2, h3, e⟩ | ⟨r, x, h1, h2, h3, e⟩ | ⟨r, x, t, h1, h2, h3, h4, e⟩ | ⟨a, h1, e⟩ | ⟨as, ha, -, e⟩
  · exact Or.inl ⟨r, x, h1, h2, h3, by rw [e]; rfl⟩
  · exact Or.inr (Or.inl ⟨r, x, h1, h2, h3, by rw [e]; rfl⟩)
  · exact Or.inr (Or.inr (Or.inl ⟨r, x, t, h1, h2, h3, h4, by rw [e]; rfl⟩))
  · exact Or.inr (Or.inr (Or.inr (Or.inl ⟨a, h1, by rw [e]; rfl⟩)))
  · exact absurd (by rw [e]) hc

/-- **C121, the same dimension.** For a region of the dimension of the causet, the model with the lengths of the arrays is the model of C48: the properties of sprinkled points hold of it. -/
theorem C121_same (R : Draws) (junk : ℕ → Point) (S : CoordinateShape) (hS : S.WellFormed) (count : ℤ) :
    sprinkleCoordsAny R junk S.dim count S = sprinkleCoords R junk S.dim count S := by
  have hd := hS.1
  have hl := hS.2.1
  unfold sprinkleCoordsAny sprinkleCoords
  by_cases hc : count < 0
  · rw [if_pos hc, if_pos hc]
  rw [if_neg hc, if_neg hc]
  dsimp only
  by_cases h1 : S.name = "cube" ∨ S.name = "cuboid"
  · rw [if_pos h1, if_pos h1]
    exact rowsOf_ok (cuboidRow_same R S hl (wf_edges hS)) _
  rw [if_neg h1, if_neg h1]
  by_cases h2 : S.name = "ball" ∨ S.name = "cylinder" ∨ S.name = "diamond"
  · rw [if_pos h2, if_pos h2]
    by_cases h3 : S.dim = 2 ∧ S.name = "diamond"
    · rw [if_pos h3, if_pos h3]
    rw [if_neg h3, if_neg h3]
    by_cases h4 : S.dim - (if S.name = "ball" then 0 else 1) = 0
    · by_cases h5 : count.toNat = 0
      · rw [if_neg (by tauto), h5]
        rfl
      · rw [if_pos ⟨h4, h5⟩]
        exact rowsOf_error (ballRow_zero R junk S.dim S h4) (by simpa using h5)
    · rw [if_neg (by tauto)]
      refine rowsOf_ok (ballRow_eq R junk S.dim S S rfl rfl rfl rfl rfl h4 (Or.inl ⟨by simp [hl], ?_⟩)) _
      intro j hj
      simp [List.getD_eq_getElem?_getD, add_comm]
  · rw [if_neg h2, if_neg h2]

/-- **C121, no points.** No point is drawn and no exception raised for the number 0, for regions of every dimension. -/
theorem C121_zero (R : Draws) (junk : ℕ → Point) (S : CoordinateShape) (hS : S.WellFormed) (dim : ℕ) : sprinkleCoordsAny R junk dim 0 S = .ok [] := by
  unfold sprinkleCoordsAny
  rw [if_neg (by omega)]
  have hn : S.name ≠ "diamond" := by rcases wf_name hS with h | h | h | h | h <;> rw [h] <;> decide
  simp only [Int.toNat_zero, List.range_zero, rowsOf, List.map_nil]
  split_ifs <;> first | rfl | (exfalso; tauto)

/-- **C121, cubes and cuboids of dimension 1.** They are accepted by causets of every dimension: NumPy repeats the single number drawn, so all coordinates of a point are equal - the points lie on the
diagonal of the cube. -/
theorem C121_diagonal (R : Draws) (junk : ℕ → Point) (S : CoordinateShape) (hS : S.WellFormed) (hn : S.name = "cube" ∨ S.name = "cuboid") (hd : S.dim = 1) (dim count : ℕ) :
    ∃ v : ℕ → ℝ, (∀ i, |v i - S.center.getD 0 0| ≤ S.edgeLen 0 / 2) ∧ (∀ i, v i = R.uniform [84, i, 0] (S.center.getD 0 0 - S.edgeLen 0 / 2) (S.center.getD 0 0 + S.edgeLen 0 / 2)) ∧
      sprinkleCoordsAny R junk dim count S = .ok ((List.range count).map fun i j => if j < dim then v i else 0) := by
  refine ⟨fun i => R.uniform [84, i, 0] (S.center.getD 0 0 - S.edgeLen 0 / 2) (S.center.getD 0 0 + S.edgeLen 0 / 2), ?_, fun _ => rfl, ?_⟩
  · intro i
    have hpos : 0 < S.edgeLen 0 := by
      obtain ⟨-, -, h⟩ := hS
      rcases h with ⟨r, x, -, -, -, e⟩ | ⟨r, x, -, -, -, e⟩ | ⟨r, x, t, -, -, -, -, e⟩ | ⟨a, ha, e⟩ | ⟨as, ha, hp, e⟩
      · rw [e] at hn; simp at hn
      · rw [e] at hn; simp at hn
      · rw [e] at hn; simp at hn
      · rw [e]; simpa [edgeLen] using ha
      · rw [e]
        simp only [edgeLen, if_true, Option.getD_some]
        rw [List.getD_eq_getElem _ _ (by omega)]
        exact hp _ (List.getElem_mem _)
    have := uniform_mem R [84, i, 0] (show S.center.getD 0 0 - S.edgeLen 0 / 2 ≤ S.center.getD 0 0 + S.edgeLen 0 / 2 by linarith)
    rw [abs_le]
    constructor <;> linarith [this.1, this.2]
  · unfold sprinkleCoordsAny
    rw [if_neg (by omega)]
    dsimp only
    rw [if_pos hn]
    simpa using rowsOf_ok (cuboidRow_diagonal R dim S hd hS.2.1 (wf_edges hS)) (List.range count)

/-- **C121, balls of dimension 1 and cylinders of dimension 2.** They are accepted by causets of every larger dimension: the points are those of the ball or cylinder of the dimension of the causet
with the same parameters, whose centre continues with its last coordinate. -/
theorem C121_lift (R : Draws) (junk : ℕ → Point) (S : CoordinateShape) (hS : S.WellFormed) (hn : (S.name = "ball" ∧ S.dim = 1) ∨ (S.name = "cylinder" ∧ S.dim = 2)) (dim : ℕ) (hdim : S.dim ≤ dim)
    (count : ℕ) (hR : ∀ i < count, ∀ bd, 0 < bd → normalNorm R bd i ≠ 0) :
    (S.lift dim).WellFormed ∧ sprinkleCoordsAny R junk dim count S = sprinkleCoords R junk dim count (S.lift dim) ∧
      ∃ rows, sprinkleCoordsAny R junk dim count S = .ok rows ∧ rows.length = count ∧ ∀ x ∈ rows, x ∈ (S.lift dim).region := by
  have hd := hS.1
  have hl := hS.2.1
  have hw := lift_wf hS dim (le_trans hd hdim) (by rcases hn with ⟨h, _⟩ | ⟨h, _⟩ <;> rw [h] <;> decide)
  have heq : sprinkleCoordsAny R junk dim count S = sprinkleCoords R junk dim count (S.lift dim) := by
    unfold sprinkleCoordsAny sprinkleCoords
    have hneg : ¬ (count : ℤ) < 0 := by omega
    rw [if_neg hneg, if_neg hneg]
    have hname : (S.lift dim).name = S.name := rfl
    have h1 : ¬ (S.name = "cube" ∨ S.name = "cuboid") := by rcases hn with ⟨h, _⟩ | ⟨h, _⟩ <;> rw [h] <;> decide
    have h2 : S.name = "ball" ∨ S.name = "cylinder" ∨ S.name = "diamond" := by tauto
    have h3 : ¬ (dim = 2 ∧ S.name = "diamond") := by rcases hn with ⟨h, _⟩ | ⟨h, _⟩ <;> rw [h] <;> simp
    have h4 : ¬ dim - (if S.name = "ball" then 0 else 1) = 0 := by rcases hn with ⟨h, h'⟩ | ⟨h, h'⟩ <;> rw [h] <;> simp <;> omega
    rw [hname]
    dsimp only
    rw [if_neg h1, if_neg h1, if_pos h2, if_pos h2, if_neg h3, if_neg h3, if_neg (by tauto)]
    refine rowsOf_ok (ballRow_eq R junk dim S (S.lift dim) rfl rfl rfl rfl ?_ h4 (Or.inr ?_)) _
    · simp only [lift]
      rw [List.getD_eq_getElem _ _ (by simp; omega)]
      simp
    · rcases hn with ⟨h, h'⟩ | ⟨h, h'⟩
      · rw [h]
        refine ⟨by simp; omega, fun j hj => ?_⟩
        simp only [lift]
        rw [List.getD_eq_getElem (List.map _ _) _ (by simpa using hj)]
        simp [h']
      · rw [h]
        refine ⟨by simp; omega, fun j hj => ?_⟩
        simp only [lift]
        rw [List.getD_eq_getElem (List.map _ _) _ (by simp at hj ⊢; omega)]
        simp [h', List.getD_eq_getElem?_getD]
  refine ⟨hw, heq, ?_⟩
  rw [heq]
  refine C48_in_region_partial R junk (S.lift dim) hw ?_ count ?_ hR
  · show S.name ≠ _
    rcases hn with ⟨h, _⟩ | ⟨h, _⟩ <;> rw [h] <;> decide
  · intro h
    have h : S.name = "cylinder" := h
    left
    show 2 ≤ dim
    rcases hn with ⟨h', _⟩ | ⟨_, h'⟩
    · rw [h] at h'; simp at h'
    · omega

/-- **C121, every other dimension.** A positive number of points in a cube, cuboid or ball whose dimension is neither that of the causet nor 1, or in a cylinder whose dimension is neither that of the
causet (at least 2) nor 2: the array operations raise ValueError. -/
theorem C121_error (R : Draws) (junk : ℕ → Point) (S : CoordinateShape) (hS : S.WellFormed) (dim count : ℕ) (hc : count ≠ 0) (hdim : 1 ≤ dim) (hd : S.dim ≠ dim)
    (hn : ((S.name = "cube" ∨ S.name = "cuboid" ∨ S.name = "ball") ∧ S.dim ≠ 1) ∨ (S.name = "cylinder" ∧ S.dim ≠ 2 ∧ 2 ≤ dim)) :
    sprinkleCoordsAny R junk dim count S = .error .valueError := by
  have hd1 := hS.1
  have hl := hS.2.1
  have hr : List.range count ≠ [] := by simpa using hc
  unfold sprinkleCoordsAny
  rw [if_neg (by omega)]
  dsimp only
  simp only [Int.toNat_natCast]
  by_cases h1 : S.name = "cube" ∨ S.name = "cuboid"
  · rw [if_pos h1]
    have : S.dim ≠ 1 := by
      rcases hn with ⟨_, h⟩ | ⟨h, _⟩
      · exact h
      · rw [h] at h1; simp at h1
    exact rowsOf_error (cuboidRow_error R dim S this hd hl (wf_edges hS)) hr
  rw [if_neg h1]
  have h2 : S.name = "ball" ∨ S.name = "cylinder" ∨ S.name = "diamond" := by tauto
  rw [if_pos h2]
  have h3 : ¬ (dim = 2 ∧ S.name = "diamond") := by
    rintro ⟨-, h3⟩
    rw [h3] at hn
    simp at hn
  rw [if_neg h3]
  refine rowsOf_error (ballRow_error R junk dim S ?_ ?_ ?_) hr
  all_goals
    rcases hn with ⟨h, h'⟩ | ⟨h, h', h''⟩
    · have h : S.name = "ball" := by tauto
      simp [h, hl]
      omega
    · simp [h, hl]
      omega

/-- **C121, cylinders in a causet of dimension 1.** The power `1.0 / b_d` divides by zero. -/
theorem C121_cylinder_1d (R : Draws) (junk : ℕ → Point) (S : CoordinateShape) (hn : S.name = "cylinder") (count : ℕ) (hc : count ≠ 0) :
    sprinkleCoordsAny R junk 1 count S = .error .zeroDivisionError := by
  unfold sprinkleCoordsAny
  rw [if_neg (by omega)]
  simp only [hn, Int.toNat_natCast]
  simp only [String.reduceEq, or_self, or_true, true_or, if_false, if_true, and_false]
  exact rowsOf_error (ballRow_zero R junk 1 S (by simp [hn])) (by simpa using hc)

/-- **C121, the state after an exception.** If the matrix of coordinates cannot be computed, no event is created and no object changed, but the intensity was already increased: by the number of points
requested of `sprinkle`, or the intensity requested of `intensify`.  The density and length scale of the causet are then those of events it does not have. -/
theorem C121_failed_state (c : Point → Point → Bool × Bool) (it : Iter) (R : Draws) (junk : ℕ → Point) (dim : ℕ) (S : CoordinateShape) (s : SprState) (x : Err) :
    (∀ count : ℤ, 0 ≤ count → sprinkleCoordsAny R junk dim count S = .error x →
      SprState.sprinkleInto c it R junk dim S count s = (.error x, { s with intensity := s.intensity + count })) ∧
    (∀ (lam : ℝ) (k : ℕ), 0 ≤ lam → sprinkleCoordsAny R junk dim k S = .error x →
      SprState.intensifyInto c it R junk dim S lam k s = (.error x, { s with intensity := s.intensity + lam })) := by
  constructor
  · intro count h0 h
    unfold SprState.sprinkleInto
    rw [if_neg (by omega)]
    dsimp only
    rw [h]
  · intro lam k h0 h
    unfold SprState.intensifyInto
    rw [if_neg (by simpa [test] using h0)]
    dsimp only
    rw [h]

/-- **C121, the methods for a region of the same dimension** are those of C49, C50 and C72. -/
theorem C121_same_methods (c : Point → Point → Bool × Bool) (it : Iter) (R : Draws) (junk : ℕ → Point) (S : CoordinateShape) (hS : S.WellFormed) (s : SprState) :
    (∀ count : ℤ, SprState.sprinkleInto c it R junk S.dim S count s = SprState.sprinkle c it R junk S.dim S count s) ∧
    (∀ (lam : ℝ) (k : ℕ), SprState.intensifyInto c it R junk S.dim S lam k s = SprState.intensify c it R junk S.dim S lam k s) := by
  constructor
  · intro count
    simp only [SprState.sprinkleInto, SprState.sprinkle, C121_same R junk S hS]
    rfl
  · intro lam k
    simp only [SprState.intensifyInto, SprState.intensify, C121_same R junk S hS]
    rfl

/-- **Specification (refuted).** The sentence of the property in brackets: a region of another dimension is rejected by an exception that leaves the causet unchanged. -/
def OtherDimensionRejected : Prop :=
  ∀ (c : Point → Point → Bool × Bool) (it : Iter) (R : Draws) (junk : ℕ → Point) (dim : ℕ) (S : CoordinateShape) (count : ℤ) (s : SprState), S.WellFormed → 1 ≤ dim → S.dim ≠ dim → 0 < count →
    ∃ x, SprState.sprinkleInto c it R junk dim S count s = (.error x, s)

/-- **C121, refuted in two ways.** A cube of dimension 1 is accepted by a causet of dimension 2; and a cube of dimension 3 is rejected, but the intensity of the causet increased. -/
theorem C121_refuted : ¬ OtherDimensionRejected ∧
    (∃ (R : Draws) (junk : ℕ → Point) (S : CoordinateShape), CoordinateShape.init 1 "cube" {} = .ok S ∧ S.dim = 1 ∧
      ∃ rows, sprinkleCoordsAny R junk 2 3 S = .ok rows ∧ rows.length = 3) ∧
    (∃ S : CoordinateShape, CoordinateShape.init 3 "cube" {} = .ok S ∧ S.dim = 3 ∧ ∀ (c : Point → Point → Bool × Bool) (it : Iter) (R : Draws) (junk : ℕ → Point) (s : SprState),
      SprState.sprinkleInto c it R junk 2 S 5 s = (.error .valueError, { s with intensity := s.intensity + 5 })) := by
  have hv : ∀ n : ℤ, 1 ≤ n → ValidShape n "cube" {} := by
    intro n hn
    exact ⟨hn, by simp, by simp, by simp, by simp, by simp, by simp⟩
  obtain ⟨S1, hS1, hw1, hd1, hn1, -⟩ := (C52_init 1 "cube" {}).1 (hv 1 le_rfl)
  obtain ⟨S3, hS3, hw3, hd3, hn3, -⟩ := (C52_init 3 "cube" {}).1 (hv 3 (by norm_num))
  have hd1 : S1.dim = 1 := by omega
  have hd3 : S3.dim = 3 := by omega
  simp only [String.reduceEq, if_false] at hn1 hn3
  let R : Draws := ⟨fun _ => 1/3, fun k => (k.getD 1 0 : ℝ) + 1, fun _ => by norm_num⟩
  have key : ∀ (c : Point → Point → Bool × Bool) (it : Iter) (R : Draws) (junk : ℕ → Point) (s : SprState),
      SprState.sprinkleInto c it R junk 2 S3 5 s = (.error .valueError, { s with intensity := s.intensity + 5 }) := by
    intro c it R junk s
    have := (C121_failed_state c it R junk 2 S3 s .valueError).1 5 (by norm_num) (by
      have := C121_error R junk S3 hw3 2 5 (by norm_num) (by norm_num) (by omega) (Or.inl ⟨Or.inl hn3, by omega⟩)
      exact_mod_cast this)
    simpa using this
  refine ⟨?_, ⟨R, fun _ _ => 0, S1, hS1, hd1, ?_⟩, S3, hS3, hd3, key⟩
  · intro h
    obtain ⟨x, hx⟩ := h (fun _ _ => (false, false)) Iter.asc R (fun _ _ => 0) 2 S3 5 ⟨∅, 0, ⟨Heap.empty, fun _ => none⟩⟩ hw3 (by norm_num) (by omega) (by norm_num)
    rw [key] at hx
    have := congrArg (fun p => p.2.intensity) hx
    simp at this
  · obtain ⟨v, -, -, h⟩ := C121_diagonal R (fun _ _ => 0) S1 hw1 (Or.inl hn1) hd1 2 3
    exact ⟨_, by exact_mod_cast h, by simp⟩

/-- The hypotheses of `C121_lift` hold for a cylinder of dimension 2 with a centre that is not the origin, in a causet of dimension 4. -/
example : ∃ (S : CoordinateShape) (R : Draws), CoordinateShape.init 2 "cylinder" { center := some [1, 2], duration := some 3 } = .ok S ∧ S.WellFormed ∧
    ((S.name = "ball" ∧ S.dim = 1) ∨ (S.name = "cylinder" ∧ S.dim = 2)) ∧ S.dim ≤ 4 ∧ (S.lift 4).center = [1, 2, 2, 2] ∧ ∀ i < 7, ∀ bd, 0 < bd → normalNorm R bd i ≠ 0 := by
  have hv : ValidShape 2 "cylinder" { center := some [1, 2], duration := some 3 } := by
    refine ⟨by norm_num, by simp, by simp, ?_, by simp, by simp, by simp⟩
    intro _
    constructor <;> simp
  obtain ⟨S, hS, hw, hd, hname, hcen, -⟩ := (C52_init 2 "cylinder" { center := some [1, 2], duration := some 3 }).1 hv
  have hd : S.dim = 2 := by omega
  have hcen : S.center = [1, 2] := by simpa using hcen
  refine ⟨S, ⟨fun _ => 1/3, fun k => (k.getD 1 0 : ℝ) + 1, fun _ => by norm_num⟩, hS, hw, Or.inr ⟨by rw [hname]; simp, hd⟩, by omega, ?_, ?_⟩
  · simp [lift, hcen, hd, List.range_succ]
  · intro i _ bd hbd
    unfold normalNorm
    simp only [List.getD_cons_succ, List.getD_cons_zero, Finset.sum_const, Finset.card_range, nsmul_eq_mul]
    have : (0 : ℝ) < bd := by exact_mod_cast hbd
    positivity

end Causets
