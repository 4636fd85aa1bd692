import Verif.Model.Shapes

/-! # C52, C54 — construction and limits of coordinate shapes (shapes.py) -/

namespace Causets

/-! ## Specification: the parameters and the regions -/

/-- **Specification.** The parameters that the documentation of `CoordinateShape` accepts (missing ones replaced by the defaults). -/
def ValidShape (dim : ℤ) (name : String) (kw : ShapeArgs) : Prop :=
  1 ≤ dim ∧ name ∈ ["ball", "bicone", "diamond", "cylinder", "cube", "cuboid"] ∧
  (∀ c, kw.center = some c → (c.length : ℤ) = dim) ∧
  (name ∈ ["ball", "bicone", "diamond", "cylinder"] →
    (∀ r, kw.radius = some r → 0 < r) ∧ (∀ h, kw.hollow = some h → 0 ≤ h ∧ h < 1)) ∧
  (name = "cylinder" → ∀ t, kw.duration = some t → 0 < t) ∧
  (name = "cube" → ∀ a, kw.edge = some a → 0 < a) ∧
  (name = "cuboid" → ∀ as, kw.edges = some as → (as.length : ℤ) = dim ∧ ∀ a ∈ as, 0 < a)

/-- **Specification.** The Euclidean distance from the centre, in the coordinates from `k` on (`k = 0`: all, `k = 1`: space only). -/
noncomputable def distFrom (k dim : ℕ) (c x : Point) : ℝ := Real.sqrt (∑ i ∈ Finset.Ico k dim, (x i - c i) ^ 2)

/-- **Specification.** The regions of the documentation: ball, bicone, cylinder (all with the fraction `hollow` of the radius empty) and cuboid.
For the hollow cylinder see `hollowCylinderDoc`. -/
def ballRegion (dim : ℕ) (c : Point) (r hollow : ℝ) : Set Point := {x | hollow * r ≤ distFrom 0 dim c x ∧ distFrom 0 dim c x ≤ r}
def biconeRegion (dim : ℕ) (c : Point) (r hollow : ℝ) : Set Point :=
  {x | hollow * r ≤ |x 0 - c 0| + distFrom 1 dim c x ∧ |x 0 - c 0| + distFrom 1 dim c x ≤ r}
def cylinderRegion (dim : ℕ) (c : Point) (r duration hollow : ℝ) : Set Point :=
  {x | |x 0 - c 0| ≤ duration / 2 ∧ hollow * r ≤ distFrom 1 dim c x ∧ distFrom 1 dim c x ≤ r}
def cuboidRegion (dim : ℕ) (c : Point) (edges : ℕ → ℝ) : Set Point := {x | ∀ i < dim, |x i - c i| ≤ edges i / 2}

namespace CoordinateShape

/-- the centre of a shape as a point -/
def centerPoint (S : CoordinateShape) : Point := fun i => S.center.getD i 0

/-- **Specification.** The region described by a shape object. -/
def region (S : CoordinateShape) : Set Point :=
  if S.name = "ball" then ballRegion S.dim S.centerPoint (S.radius.getD 0) (S.hollow.getD 0)
  else if S.name = "bicone" then biconeRegion S.dim S.centerPoint (S.radius.getD 0) (S.hollow.getD 0)
  else if S.name = "cylinder" then cylinderRegion S.dim S.centerPoint (S.radius.getD 0) (S.duration.getD 0) (S.hollow.getD 0)
  else if S.name = "cube" then cuboidRegion S.dim S.centerPoint (fun _ => S.edge.getD 0)
  else cuboidRegion S.dim S.centerPoint (fun i => (S.edges.getD []).getD i 0)

/-- **Specification.** What holds of every shape object: a positive dimension, a supported name, and the parameters of this shape (no others)
in their documented ranges. -/
def WellFormed (S : CoordinateShape) : Prop :=
  1 ≤ S.dim ∧ S.center.length = S.dim ∧
  ((∃ r h, 0 < r ∧ 0 ≤ h ∧ h < 1 ∧ S = { dim := S.dim, name := "ball", center := S.center, radius := some r, hollow := some h }) ∨
   (∃ r h, 0 < r ∧ 0 ≤ h ∧ h < 1 ∧ S = { dim := S.dim, name := "bicone", center := S.center, radius := some r, hollow := some h }) ∨
   (∃ r h t, 0 < r ∧ 0 ≤ h ∧ h < 1 ∧ 0 < t ∧
     S = { dim := S.dim, name := "cylinder", center := S.center, radius := some r, hollow := some h, duration := some t }) ∨
   (∃ a, 0 < a ∧ S = { dim := S.dim, name := "cube", center := S.center, edge := some a }) ∨
   (∃ as : List ℝ, as.length = S.dim ∧ (∀ a ∈ as, 0 < a) ∧ S = { dim := S.dim, name := "cuboid", center := S.center, edges := some as }))

end CoordinateShape

open CoordinateShape

theorem rangeFails_pos (v : ℝ) : rangeFails v none false = true ↔ ¬ 0 < v := by simp [rangeFails, test]
theorem rangeFails_hollow (v : ℝ) : rangeFails v (some 1) true = true ↔ ¬ (0 ≤ v ∧ v < 1) := by
  rw [not_and_or, not_le, not_lt]; simp [rangeFails, test]
theorem anyFails (l : List ℝ) : (l.any fun x => test (x ≤ 0)) = true ↔ ¬ ∀ a ∈ l, 0 < a := by
  simp [List.any_eq_true, test]

/-- **C52.** `CoordinateShape(dim, name, ...)` succeeds exactly for the documented parameters and raises ValueError otherwise; the object
has the given dimension, the name (with 'diamond' replaced by 'bicone'), the given or zero centre, and the given or default parameters, all in
their ranges. -/
theorem C52_init (dim : ℤ) (name : String) (kw : ShapeArgs) :
    (ValidShape dim name kw → ∃ S, CoordinateShape.init dim name kw = .ok S ∧ S.WellFormed ∧ (S.dim : ℤ) = dim ∧
      S.name = (if name = "diamond" then "bicone" else name) ∧ S.center = kw.center.getD (List.replicate S.dim 0) ∧
      (name ∈ ["ball", "bicone", "diamond", "cylinder"] → S.radius = some (kw.radius.getD 1) ∧ S.hollow = some (kw.hollow.getD 0)) ∧
      (name = "cylinder" → S.duration = some (kw.duration.getD (2 * kw.radius.getD 1))) ∧
      (name = "cube" → S.edge = some (kw.edge.getD 1)) ∧
      (name = "cuboid" → S.edges = some (kw.edges.getD (List.replicate S.dim 1)))) ∧
    (¬ ValidShape dim name kw → CoordinateShape.init dim name kw = .error .valueError) := by
  have hall : ∀ (p : ℝ → Prop) (o : Option ℝ) (d : ℝ), p d → ((∀ r, o = some r → p r) ↔ p (o.getD d)) := by
    intro p o d hd
    rcases o with _ | r
    · simpa using hd
    · simp
  have hall' : ∀ (p : List ℝ → Prop) (o : Option (List ℝ)) (d : List ℝ), p d → ((∀ r, o = some r → p r) ↔ p (o.getD d)) := by
    intro p o d hd
    rcases o with _ | r
    · simpa using hd
    · simp
  unfold CoordinateShape.init ValidShape
  by_cases h1 : dim < 1
  · rw [if_pos h1]
    exact ⟨fun h => absurd h.1 (by omega), fun _ => rfl⟩
  rw [if_neg h1]
  by_cases h2 : name ≠ "diamond" ∧ name ∉ ["ball", "bicone", "cylinder", "cube", "cuboid"]
  · rw [if_pos h2]
    refine ⟨fun h => absurd h.2.1 ?_, fun _ => rfl⟩
    simp only [List.mem_cons, List.not_mem_nil, or_false] at h2 ⊢
    tauto
  rw [if_neg h2]
  obtain ⟨d, rfl⟩ : ∃ d : ℕ, dim = d := ⟨dim.toNat, by omega⟩
  have hd1 : 1 ≤ d := by omega
  rw [hall' (fun c => (c.length : ℤ) = (d : ℤ)) kw.center (List.replicate d 0) (by simp)]
  rw [hall (fun r => 0 < r) kw.radius 1 (by norm_num), hall (fun h => 0 ≤ h ∧ h < 1) kw.hollow 0 (by norm_num),
    hall (fun r => 0 < r) kw.edge 1 (by norm_num),
    hall' (fun as => (as.length : ℤ) = (d : ℤ) ∧ ∀ a ∈ as, 0 < a) kw.edges (List.replicate d 1)
      ⟨by simp, fun a ha => by rw [List.eq_of_mem_replicate ha]; norm_num⟩]
  simp only [Int.toNat_natCast]
  by_cases h3 : (kw.center.getD (List.replicate d 0)).length = d
  swap
  · rw [if_pos h3]
    exact ⟨fun h => absurd (by exact_mod_cast h.2.2.1) h3, fun _ => rfl⟩
  rw [if_neg (not_not.2 h3)]
  have h3' : ((kw.center.getD (List.replicate d 0)).length : ℤ) = (d : ℤ) := by exact_mod_cast h3
  simp only [rangeFails_pos, rangeFails_hollow]
  have hn : name = "ball" ∨ name = "bicone" ∨ name = "diamond" ∨ name = "cylinder" ∨ name = "cube" ∨ name = "cuboid" := by
    simp only [List.mem_cons, List.not_mem_nil, or_false] at h2
    tauto
  simp only [anyFails]
  rcases hn with rfl | rfl | rfl | rfl | rfl | rfl
  · by_cases hr : 0 < kw.radius.getD 1
    · by_cases hh : 0 ≤ kw.hollow.getD 0 ∧ kw.hollow.getD 0 < 1
      · refine ⟨fun _ => ⟨(⟨d, "ball", kw.center.getD (List.replicate d 0),
            some (kw.radius.getD 1), some (kw.hollow.getD 0), none, none, none⟩ : CoordinateShape), ?_, ⟨hd1, h3, Or.inl ⟨_, _, hr, hh.1, hh.2, rfl⟩⟩, ?_⟩, fun hv => absurd ?_ hv⟩
        · simp only [String.reduceEq, if_true, if_false, true_or, or_true, hr, hh, and_self, not_true_eq_false]
        · simp
        · exact ⟨by omega, by simp, h3', fun _ => ⟨hr, hh⟩, by simp, by simp, by simp⟩
      · refine ⟨fun hv => absurd (hv.2.2.2.1 (by simp)).2 hh, fun _ => ?_⟩
        simp only [String.reduceEq, if_true, if_false, true_or, or_true, hr, hh, not_false_eq_true, not_true_eq_false]
    · refine ⟨fun hv => absurd (hv.2.2.2.1 (by simp)).1 hr, fun _ => ?_⟩
      simp only [String.reduceEq, if_true, if_false, true_or, or_true, hr, not_false_eq_true]
  · by_cases hr : 0 < kw.radius.getD 1
    · by_cases hh : 0 ≤ kw.hollow.getD 0 ∧ kw.hollow.getD 0 < 1
      · refine ⟨fun _ => ⟨(⟨d, "bicone", kw.center.getD (List.replicate d 0),
            some (kw.radius.getD 1), some (kw.hollow.getD 0), none, none, none⟩ : CoordinateShape), ?_, ⟨hd1, h3, Or.inr (Or.inl ⟨_, _, hr, hh.1, hh.2, rfl⟩)⟩, ?_⟩, fun hv => absurd ?_ hv⟩
        · simp only [String.reduceEq, if_true, if_false, true_or, or_true, hr, hh, and_self, not_true_eq_false]
        · simp
        · exact ⟨by omega, by simp, h3', fun _ => ⟨hr, hh⟩, by simp, by simp, by simp⟩
      · refine ⟨fun hv => absurd (hv.2.2.2.1 (by simp)).2 hh, fun _ => ?_⟩
        simp only [String.reduceEq, if_true, if_false, true_or, or_true, hr, hh, not_false_eq_true, not_true_eq_false]
    · refine ⟨fun hv => absurd (hv.2.2.2.1 (by simp)).1 hr, fun _ => ?_⟩
      simp only [String.reduceEq, if_true, if_false, true_or, or_true, hr, not_false_eq_true]
  · by_cases hr : 0 < kw.radius.getD 1
    · by_cases hh : 0 ≤ kw.hollow.getD 0 ∧ kw.hollow.getD 0 < 1
      · refine ⟨fun _ => ⟨(⟨d, "bicone", kw.center.getD (List.replicate d 0),
            some (kw.radius.getD 1), some (kw.hollow.getD 0), none, none, none⟩ : CoordinateShape), ?_, ⟨hd1, h3, Or.inr (Or.inl ⟨_, _, hr, hh.1, hh.2, rfl⟩)⟩, ?_⟩, fun hv => absurd ?_ hv⟩
        · simp only [String.reduceEq, if_true, if_false, true_or, or_true, hr, hh, and_self, not_true_eq_false]
        · simp
        · exact ⟨by omega, by simp, h3', fun _ => ⟨hr, hh⟩, by simp, by simp, by simp⟩
      · refine ⟨fun hv => absurd (hv.2.2.2.1 (by simp)).2 hh, fun _ => ?_⟩
        simp only [String.reduceEq, if_true, if_false, true_or, or_true, hr, hh, not_false_eq_true, not_true_eq_false]
    · refine ⟨fun hv => absurd (hv.2.2.2.1 (by simp)).1 hr, fun _ => ?_⟩
      simp only [String.reduceEq, if_true, if_false, true_or, or_true, hr, not_false_eq_true]
  · by_cases hr : 0 < kw.radius.getD 1
    · by_cases hh : 0 ≤ kw.hollow.getD 0 ∧ kw.hollow.getD 0 < 1
      · rw [hall (fun r => 0 < r) kw.duration (2 * kw.radius.getD 1) (by linarith)]
        by_cases ht : 0 < kw.duration.getD (2 * kw.radius.getD 1)
        · refine ⟨fun _ => ⟨(⟨d, "cylinder", kw.center.getD (List.replicate d 0),
            some (kw.radius.getD 1), some (kw.hollow.getD 0), some (kw.duration.getD (2 * kw.radius.getD 1)), none, none⟩ : CoordinateShape), ?_,
            ⟨hd1, h3, Or.inr (Or.inr (Or.inl ⟨_, _, _, hr, hh.1, hh.2, ht, rfl⟩))⟩, ?_⟩, fun hv => absurd ?_ hv⟩
          · simp only [String.reduceEq, if_true, if_false, or_true, hr, hh, ht, and_self, not_true_eq_false]
          · simp
          · exact ⟨by omega, by simp, h3', fun _ => ⟨hr, hh⟩, fun _ => ht, by simp, by simp⟩
        · refine ⟨fun hv => absurd (hv.2.2.2.2.1 rfl) ht, fun _ => ?_⟩
          simp only [String.reduceEq, if_true, if_false, or_true, hr, hh, ht, and_self, not_true_eq_false, not_false_eq_true]
      · refine ⟨fun hv => absurd (hv.2.2.2.1 (by simp)).2 hh, fun _ => ?_⟩
        simp only [String.reduceEq, if_true, if_false, or_true, hr, hh, not_false_eq_true, not_true_eq_false]
    · refine ⟨fun hv => absurd (hv.2.2.2.1 (by simp)).1 hr, fun _ => ?_⟩
      simp only [String.reduceEq, if_true, if_false, or_true, hr, not_false_eq_true]
  · by_cases ha : 0 < kw.edge.getD 1
    · refine ⟨fun _ => ⟨(⟨d, "cube", kw.center.getD (List.replicate d 0),
            none, none, none, some (kw.edge.getD 1), none⟩ : CoordinateShape), ?_,
        ⟨hd1, h3, Or.inr (Or.inr (Or.inr (Or.inl ⟨_, ha, rfl⟩)))⟩, ?_⟩, fun hv => absurd ?_ hv⟩
      · simp only [String.reduceEq, if_true, if_false, or_self, ha, not_true_eq_false]
      · simp
      · exact ⟨by omega, by simp, h3', by simp, by simp, fun _ => ha, by simp⟩
    · refine ⟨fun hv => absurd (hv.2.2.2.2.2.1 rfl) ha, fun _ => ?_⟩
      simp only [String.reduceEq, if_true, if_false, or_self, ha, not_false_eq_true]
  · by_cases hl : (kw.edges.getD (List.replicate d 1)).length = d
    · have hl' : ((kw.edges.getD (List.replicate d 1)).length : ℤ) = (d : ℤ) := by exact_mod_cast hl
      by_cases ha : ∀ a ∈ kw.edges.getD (List.replicate d 1), 0 < a
      · refine ⟨fun _ => ⟨(⟨d, "cuboid", kw.center.getD (List.replicate d 0),
            none, none, none, none, some (kw.edges.getD (List.replicate d 1))⟩ : CoordinateShape), ?_, ⟨hd1, h3, Or.inr (Or.inr (Or.inr (Or.inr ⟨_, hl, ha, rfl⟩)))⟩, ?_⟩,
          fun hv => absurd ?_ hv⟩
        · simp only [String.reduceEq, if_false, or_self, hl, ne_eq, not_true_eq_false]
          rw [if_neg (not_not.2 ha)]
        · simp
        · exact ⟨by omega, by simp, h3', by simp, by simp, by simp, fun _ => ⟨hl', ha⟩⟩
      · refine ⟨fun hv => absurd (hv.2.2.2.2.2.2 rfl).2 ha, fun _ => ?_⟩
        simp only [String.reduceEq, if_false, or_self, hl, ne_eq, not_true_eq_false]
        rw [if_pos ha]
    · refine ⟨fun hv => absurd (by exact_mod_cast (hv.2.2.2.2.2.2 rfl).1) hl, fun _ => ?_⟩
      simp only [String.reduceEq, if_false, or_self, hl, not_false_eq_true, ne_eq, if_true]

/-- C52: valid parameters -/
example : ValidShape 3 "diamond" { radius := some 2, hollow := some (1 / 2) } := by
  simp [ValidShape]; norm_num

/-! ## Parameters and printing (C87) -/

/-- **C87, parameters.** `Parameter(key)` of a shape object returns the parameters of this kind of shape and raises KeyError for every other key. -/
theorem C87_parameter (S : CoordinateShape) (hS : S.WellFormed) (key : String) :
    (S.parameter key = .error .keyError ∨ ∃ v, S.parameter key = .ok v) ∧
    ((∃ v, S.parameter key = .ok v) ↔
      (S.name ∈ ["ball", "bicone", "cylinder"] ∧ key ∈ ["radius", "hollow"]) ∨ (S.name = "cylinder" ∧ key = "duration") ∨ (S.name = "cube" ∧ key = "edge") ∨
      (S.name = "cuboid" ∧ key = "edges")) := by
  obtain ⟨-, -, h⟩ := hS
  by_cases k1 : key = "radius"
  · rcases h with ⟨r, x, -, -, -, e⟩ | ⟨r, x, -, -, -, e⟩ | ⟨r, x, t, -, -, -, -, e⟩ | ⟨a, -, e⟩ | ⟨as, -, -, e⟩ <;> rw [e] <;> subst k1 <;> simp [CoordinateShape.parameter]
  by_cases k2 : key = "hollow"
  · rcases h with ⟨r, x, -, -, -, e⟩ | ⟨r, x, -, -, -, e⟩ | ⟨r, x, t, -, -, -, -, e⟩ | ⟨a, -, e⟩ | ⟨as, -, -, e⟩ <;> rw [e] <;> subst k2 <;> simp [CoordinateShape.parameter]
  by_cases k3 : key = "duration"
  · rcases h with ⟨r, x, -, -, -, e⟩ | ⟨r, x, -, -, -, e⟩ | ⟨r, x, t, -, -, -, -, e⟩ | ⟨a, -, e⟩ | ⟨as, -, -, e⟩ <;> rw [e] <;> subst k3 <;> simp [CoordinateShape.parameter]
  by_cases k4 : key = "edge"
  · rcases h with ⟨r, x, -, -, -, e⟩ | ⟨r, x, -, -, -, e⟩ | ⟨r, x, t, -, -, -, -, e⟩ | ⟨a, -, e⟩ | ⟨as, -, -, e⟩ <;> rw [e] <;> subst k4 <;> simp [CoordinateShape.parameter]
  by_cases k5 : key = "edges"
  · rcases h with ⟨r, x, -, -, -, e⟩ | ⟨r, x, -, -, -, e⟩ | ⟨r, x, t, -, -, -, -, e⟩ | ⟨a, -, e⟩ | ⟨as, -, -, e⟩ <;> rw [e] <;> subst k5 <;> simp [CoordinateShape.parameter]
  have : S.parameter key = .error .keyError := by simp [CoordinateShape.parameter, k1, k2, k3, k4, k5]
  simp [this, k1, k2, k3, k4, k5]

/-- **C87, values.** The values returned by `Parameter` are the parameters of the shape of this name. -/
theorem C87_parameter_values (S : CoordinateShape) (hS : S.WellFormed) (v : ParamValue) :
    (S.parameter "radius" = .ok v ↔ ∃ x, S.radius = some x ∧ v = .num x) ∧ (S.parameter "hollow" = .ok v ↔ ∃ x, S.hollow = some x ∧ v = .num x) ∧
    (S.parameter "duration" = .ok v ↔ ∃ x, S.duration = some x ∧ v = .num x) ∧ (S.parameter "edge" = .ok v ↔ ∃ x, S.edge = some x ∧ v = .num x) ∧
    (S.parameter "edges" = .ok v ↔ ∃ x, S.edges = some x ∧ v = .list x) := by
  obtain ⟨-, -, h⟩ := hS
  rcases h with ⟨r, x, -, -, -, e⟩ | ⟨r, x, -, -, -, e⟩ | ⟨r, x, t, -, -, -, -, e⟩ | ⟨a, -, e⟩ | ⟨as, -, -, e⟩ <;> rw [e] <;>
    simp [CoordinateShape.parameter, eq_comm]

/-- **C87, str.** `str(shape)` is the dimension and the name, with the word hollow in front exactly if the shape has a hole. -/
theorem C87_str (S : CoordinateShape) (hS : S.WellFormed) :
    S.str = (if 0 < S.hollow.getD 0 then "hollow " else "") ++ toString S.dim ++ "-" ++ S.name := by
  obtain ⟨-, -, h⟩ := hS
  unfold CoordinateShape.str
  cases hh : S.hollow with
  | none => simp [toString]
  | some x =>
    by_cases hx : 0 < x
    · simp [test, hx, toString]
    · simp [test, hx, toString]

/-- **C87, refuted for repr.** `repr(shape)` raises AttributeError, for every shape object. -/
theorem C87_repr_refuted (dim : ℤ) (name : String) (kw : ShapeArgs) (S : CoordinateShape) (_ : CoordinateShape.init dim name kw = .ok S) :
    ¬ ∃ text, S.repr = .ok text := by
  rintro ⟨t, h⟩
  simp [CoordinateShape.repr] at h

end Causets
