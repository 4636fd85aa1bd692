import Verif.Model.EmbInit
import Verif.Props.CreateOrder
import Verif.Props.Shapes
import Verif.Props.Flat
import Verif.Props.Curved
import Verif.Props.BlackHole
import Verif.Props.EmbPermutation

/-! # C81 — the constructor of `EmbeddedCauset` (embeddedcauset.py:28-118) -/

namespace Causets
open Heap

/-! ## `create` and `relate` never raise (any causality function) -/

theorem linkAddSucc_noraise (b : EId) : ∀ (L : List EId) (h : Heap), (∀ a ∈ L, (h.lsucc a).isSome) →
    (linkAddSucc b L h).1 = .ok () ∧ ∀ a, (h.lsucc a).isSome → ((linkAddSucc b L h).2.lsucc a).isSome
  | [], h, _ => ⟨rfl, fun _ ha => ha⟩
  | e :: es, h, hL => by
    obtain ⟨t, ht⟩ := Option.isSome_iff_exists.1 (hL e (by simp))
    have hkeep : ∀ a, (h.lsucc a).isSome → ((Function.update h.lsucc e (some (insert b t))) a).isSome := by
      intro a ha
      by_cases hae : a = e
      · rw [hae, Function.update_self]; rfl
      · rw [Function.update_of_ne hae]; exact ha
    obtain ⟨h1, h2⟩ := linkAddSucc_noraise b es { h with lsucc := Function.update h.lsucc e (some (insert b t)) }
      (fun a ha => hkeep a (hL a (by simp [ha])))
    unfold linkAddSucc
    rw [ht]
    exact ⟨h1, fun a ha => h2 a (hkeep a ha)⟩

theorem linkCompute_ok_of_subset (it : Iter) (C : Finset EId) : ∀ (L : List EId) (h : Heap), (∀ b ∈ L, ∀ a ∈ h.prec b, a ∈ C) →
    (∀ a ∈ C, (h.lsucc a).isSome) → (linkCompute it L h).1 = .ok ()
  | [], _, _, _ => rfl
  | b :: bs, h, hp, hs => by
    unfold linkCompute
    dsimp only
    obtain ⟨h1, h2⟩ := linkAddSucc_noraise b (it.ord [b, 291] (h.pastLinks b)) { h with lprec := Function.update h.lprec b (some (h.pastLinks b)) }
      (fun a ha => hs a (hp b (by simp) a (by rw [it.mem] at ha; exact (Finset.mem_filter.1 ha).1)))
    have so := linkAddSucc_sameOrder b (it.ord [b, 291] (h.pastLinks b)) { h with lprec := Function.update h.lprec b (some (h.pastLinks b)) }
    rcases hu : linkAddSucc b (it.ord [b, 291] (h.pastLinks b)) { h with lprec := Function.update h.lprec b (some (h.pastLinks b)) } with ⟨r, g⟩
    rw [hu] at h1 h2 so
    dsimp only at h1 h2
    rw [h1]
    refine linkCompute_ok_of_subset it C bs g (fun x hx a ha => ?_) (fun a ha => h2 a (hs a ha))
    rw [so.prec] at ha
    exact hp x (by simp [hx]) a ha

theorem linkClear_isSome : ∀ (L : List EId) (h : Heap) (a : EId), a ∈ L ∨ (h.lsucc a).isSome → ((linkClear L h).lsucc a).isSome
  | [], h, a, ha => by simpa [linkClear] using ha
  | e :: es, h, a, ha => by
    unfold linkClear
    refine linkClear_isSome es _ a ?_
    by_cases hae : a = e
    · right; rw [hae]; simp
    · rcases ha with ha | ha
      · left; simpa [hae] using ha
      · right; simpa [Function.update_of_ne hae] using ha

/-- `relate` with linking never raises if all events of the causet have coordinates, whatever the causality function and the state -/
theorem relate_ok {α : Type} (c : α → α → Bool × Bool) (it : Iter) (C : Finset EId) (w : World α) (pos : EId → α)
    (hpos : ∀ e ∈ C, w.crd e = some (pos e)) : (relate c it C true w).1 = .ok () := by
  obtain ⟨g, g1, -, -, -, -, g6, -⟩ := relate_loops c it C w pos hpos
  unfold relate
  rw [g1]
  dsimp only
  rw [if_pos rfl]
  unfold causetLink
  refine linkCompute_ok_of_subset it C _ _ (fun b hb a ha => ?_) (fun a ha => linkClear_isSome _ _ _ (Or.inl ((it.mem _ _ _).2 ha)))
  rw [(linkClear_sameOrder _ _).prec, g6] at ha
  rcases ha with ⟨h1, -⟩ | h1
  · exact absurd ((it.mem _ _ _).1 hb) h1
  · rcases h1 with ⟨h1, -⟩ | ⟨h1, -⟩
    · exact (it.mem _ _ _).1 h1.mem.1
    · exact (it.mem _ _ _).1 h1.mem.2

/-- **C46, no exceptions.** `create` never raises if all events of the causet have coordinates, whatever the causality function and the state. -/
theorem C46_create_ok {α : Type} (c : α → α → Bool × Bool) (it : Iter) (C : Finset EId) (coords : List α) (fmt : Option (ℕ → String))
    (doRelate : Bool) (w : World α) (hex : ∀ e ∈ C, w.heap.Exists e) (hemb : ∀ e ∈ C, (w.crd e).isSome) :
    (create c it C coords fmt doRelate w).2.2.1 = .ok () := by
  unfold create
  dsimp only
  cases doRelate with
  | false => rfl
  | true =>
    rw [if_pos rfl]
    dsimp only
    obtain ⟨h1, h2, h3, h4⟩ := createEvents_spec it fmt coords (C.card + 1) w
    have hsome : ∀ e ∈ C ∪ (createEvents it fmt (C.card + 1) coords w).1.toFinset, ((createEvents it fmt (C.card + 1) coords w).2.crd e).isSome := by
      intro e he
      rcases Finset.mem_union.1 he with he | he
      · rw [h4 e (hex e he)]; exact hemb e he
      · rw [List.mem_toFinset, h1, List.mem_range'_1] at he
        obtain ⟨k, hk⟩ : ∃ k, e = w.heap.next + k := ⟨e - w.heap.next, by omega⟩
        rw [hk, h3 k (by omega)]; rfl
    by_cases hα : Nonempty α
    · exact relate_ok c it _ _ (fun e => ((createEvents it fmt (C.card + 1) coords w).2.crd e).getD hα.some) fun e he => by
        obtain ⟨x, hx⟩ := Option.isSome_iff_exists.1 (hsome e he)
        rw [hx]; rfl
    · have hC' : C ∪ (createEvents it fmt (C.card + 1) coords w).1.toFinset = ∅ := by
        rw [Finset.eq_empty_iff_forall_notMem]
        intro e he
        obtain ⟨x, hx⟩ := Option.isSome_iff_exists.1 (hsome e he)
        exact hα ⟨x⟩
      have e0 : ∀ k, it.ord k (∅ : Finset ℕ) = [] := fun k => by
        rw [List.eq_nil_iff_forall_not_mem]; intro x hx; rw [it.mem] at hx; simp at hx
      rw [hC']
      unfold relate
      rw [e0, e0]
      simp only [relateRows, relateClear, if_true]
      unfold causetLink
      rw [e0, e0]
      rfl

/-! ## Specification -/

/-- **Specification.** The spacetime `M` is what the argument `spacetime` stands for in `d` dimensions. -/
def SpacetimeArg.Means : SpacetimeArg → ℕ → SpacetimeObj → Prop
  | .none, d, M => 1 ≤ d ∧ M = .flat ⟨d, false, Option.none⟩
  | .name s, d, M =>
    (s ∈ ["flat", "Minkowski"] ∧ 1 ≤ d ∧ M = .flat ⟨d, false, Option.none⟩) ∨
    (s ∈ ["dS", "de Sitter"] ∧ 2 ≤ d ∧ M = .deSitter d 1) ∨
    (s ∈ ["AdS", "Anti-de Sitter"] ∧ 2 ≤ d ∧ M = .antiDeSitter d (1 / 2)) ∨
    (s ∈ ["black hole", "Schwarzschild"] ∧ d = 2 ∧ M = .blackHole (1 / 2) .eddingtonFinkelstein)
  | .obj N, d, M => M = N ∧ N.dim = d

/-- **Specification.** The name of the default region of a spacetime: a cube if it is periodic, a diamond if it is flat, otherwise a cylinder. -/
def SpacetimeObj.defaultRegion : SpacetimeObj → String
  | .flat M => if M.isPeriodic then "cube" else "diamond"
  | _ => "cylinder"

/-- **Specification.** The region `S` is what the argument `shape` stands for in `d` dimensions, for the default name `dflt`. -/
def ShapeArg.Means : ShapeArg → String → ℕ → CoordinateShape → Prop
  | .none, dflt, d, S => CoordinateShape.init d dflt {} = .ok S
  | .name s, _, d, S => s ∈ ["ball", "bicone", "diamond", "cylinder", "cube", "cuboid"] ∧ CoordinateShape.init d s {} = .ok S
  | .obj T, _, d, S => S = T ∧ T.dim = d

/-- **Specification.** Coordinates of dimension `d`: every row has `d` entries. -/
def CoordsArg.HasDim : CoordsArg → ℕ → Prop
  | .none, _ => True
  | .rows rs, d => ∀ r ∈ rs, r.length = d
  | .matrix cols _, d => cols = d
  | .vector _, _ => False

/-- **Specification.** The rows of the coordinates as points. -/
def CoordsArg.points : CoordsArg → List Point
  | .none => []
  | .rows rs => rs.map fun r i => if h : i < r.length then r[i] else 0
  | .matrix cols rs => rs.map fun r i => if h : i < cols then r ⟨i, h⟩ else 0
  | .vector _ => []

theorem rowPoint_eq (r : List ℝ) : rowPoint r = fun i => if h : i < r.length then r[i] else 0 := by
  funext i
  unfold rowPoint
  split
  · rename_i h; simp [List.getD, h]
  · rename_i h; simp [List.getD, List.getElem?_eq_none (not_lt.1 h)]

theorem rowPoint_ofFn {cols : ℕ} (r : Fin cols → ℝ) : rowPoint (List.ofFn r) = fun i => if h : i < cols then r ⟨i, h⟩ else 0 := by
  rw [rowPoint_eq]
  funext i
  by_cases h : i < cols
  · rw [dif_pos (by rw [List.length_ofFn]; exact h), dif_pos h, List.getElem_ofFn]
  · rw [dif_neg (by rw [List.length_ofFn]; exact h), dif_neg h]

/-- **Specification.** The rows, if coordinates are given at all. -/
def CoordsArg.given : CoordsArg → Option (List Point)
  | .none => Option.none
  | co => some co.points

theorem CoordsArg.given_some {co : CoordsArg} (h : co ≠ .none) : co.given = some co.points := by
  cases co <;> first | rfl | exact absurd rfl h

/-- **Specification.** No argument determines the dimension. -/
def Unspecified (spacetime : SpacetimeArg) (shape : ShapeArg) (coordinates : CoordsArg) (dim : ℤ) : Prop :=
  dim ≤ 0 ∧ (∀ M, spacetime ≠ .obj M) ∧ (∀ S, shape ≠ .obj S) ∧ coordinates = .none

/-- **Specification.** The four arguments are compatible: one dimension `d` fits them all (2 if none of them determines it). -/
def Compatible (spacetime : SpacetimeArg) (shape : ShapeArg) (coordinates : CoordsArg) (dim : ℤ) (d : ℕ) (M : SpacetimeObj) (S : CoordinateShape) : Prop :=
  (Unspecified spacetime shape coordinates dim → d = 2) ∧ (dim ≤ 0 ∨ dim = d) ∧ spacetime.Means d M ∧ shape.Means M.defaultRegion d S ∧ coordinates.HasDim d

/-- **Specification.** Nothing but the coordinates determines the dimension and there are no rows: the constructor has no dimension to choose. -/
def NoDimension : SpacetimeArg → ShapeArg → CoordsArg → ℤ → Prop
  | .obj _, _, _, _ => False
  | _, .obj _, _, _ => False
  | _, _, .rows rs, dim => dim ≤ 0 ∧ rs = []
  | _, _, .matrix _ rs, dim => dim ≤ 0 ∧ rs = []
  | _, _, .vector _, dim => dim ≤ 0
  | _, _, .none, _ => False

/-- spacetime objects that the constructors of the library return -/
def SpacetimeObj.Constructed : SpacetimeObj → Prop
  | .base => True
  | .flat M => ∃ d p, FlatSpacetime.init d p = .ok M
  | .deSitter d a => ∃ d', dSInit d' a = .ok (d, a)
  | .antiDeSitter d a => ∃ d', dSInit d' a = .ok (d, a)
  | .blackHole r m => ∃ d', bhInit d' r (some m) = .ok (r, m)

theorem SpacetimeObj.Constructed.dim_pos {M : SpacetimeObj} (hM : M.Constructed) : 1 ≤ M.dim := by
  cases M with
  | base => simp [SpacetimeObj.dim]
  | flat M =>
    obtain ⟨d, p, hp⟩ := hM
    unfold FlatSpacetime.init at hp
    split at hp
    · exact absurd hp (by simp)
    rename_i hd
    have : M.dim = d.toNat := by
      split at hp
      · split at hp <;> rw [← Except.ok.inj hp]
      · split at hp
        · split at hp <;> rw [← Except.ok.inj hp]
        · exact absurd hp (by simp)
      · exact absurd hp (by simp)
    simp only [SpacetimeObj.dim]
    omega
  | deSitter d a =>
    obtain ⟨d', hp⟩ := hM
    unfold dSInit at hp
    split at hp
    · exact absurd hp (by simp)
    split at hp
    · have := Except.ok.inj hp; simp at this; simp only [SpacetimeObj.dim]; omega
    · exact absurd hp (by simp)
  | antiDeSitter d a =>
    obtain ⟨d', hp⟩ := hM
    unfold dSInit at hp
    split at hp
    · exact absurd hp (by simp)
    split at hp
    · have := Except.ok.inj hp; simp at this; simp only [SpacetimeObj.dim]; omega
    · exact absurd hp (by simp)
  | blackHole r m => simp [SpacetimeObj.dim]

/-! ## The stages of the constructor -/

theorem shapeInit_name (d : ℕ) (s : String) :
    (1 ≤ d ∧ s ∈ ["ball", "bicone", "diamond", "cylinder", "cube", "cuboid"] → ∃ S, CoordinateShape.init d s {} = .ok S ∧ S.dim = d ∧ S.WellFormed) ∧
    (¬ (1 ≤ d ∧ s ∈ ["ball", "bicone", "diamond", "cylinder", "cube", "cuboid"]) → CoordinateShape.init d s {} = .error .valueError) := by
  obtain ⟨h1, h2⟩ := C52_init (d : ℤ) s {}
  have hv : ValidShape (d : ℤ) s {} ↔ (1 ≤ d ∧ s ∈ ["ball", "bicone", "diamond", "cylinder", "cube", "cuboid"]) := by
    unfold ValidShape
    simp
  rw [hv] at h1 h2
  refine ⟨fun h => ?_, h2⟩
  obtain ⟨S, h3, h4, h5, -⟩ := h1 h
  exact ⟨S, h3, by exact_mod_cast h5, h4⟩

theorem flatInit_zero (d : ℤ) : FlatSpacetime.init d (.float 0) = if d < 1 then .error .valueError else .ok ⟨d.toNat, false, none⟩ := by
  unfold FlatSpacetime.init
  simp

theorem dSInit_pos (d : ℤ) {a : ℝ} (ha : 0 < a) : dSInit d a = if d < 2 then .error .valueError else .ok (d.toNat, a) := by
  unfold dSInit
  simp [test, ha]

theorem bhInit_default (d : ℤ) : bhInit d 0.5 (some .eddingtonFinkelstein) =
    if d = 2 then .ok (0.5, .eddingtonFinkelstein) else .error .valueError := by
  unfold bhInit
  rcases lt_trichotomy d 2 with h | h | h
  · rw [if_pos h, if_neg (by omega)]
  · subst h
    simp [test]
    norm_num
  · rw [if_neg (by omega), if_pos h, if_neg (by omega)]

/-- the spacetime stage -/
theorem initSpacetime_spec (a : SpacetimeArg) (d : ℕ) (ha : ∀ N, a = .obj N → N.Constructed) :
    (∀ M, a.Means d M → initSpacetime a d = .ok M ∧ M.dim = d ∧ 1 ≤ d) ∧ ((∀ M, ¬ a.Means d M) → initSpacetime a d = .error .valueError) := by
  have hflat : initSpacetime .none d = if d < 1 then .error .valueError else .ok (.flat ⟨d, false, Option.none⟩) := by
    unfold initSpacetime
    simp only [flatInit_zero]
    by_cases hd : d < 1
    · rw [if_pos (by omega), if_pos hd]; rfl
    · rw [if_neg (by omega), if_neg hd]
      simp [Except.map, bind, Except.bind, SpacetimeObj.dim]
  cases a with
  | none =>
    rw [hflat]
    refine ⟨fun M hM => ?_, fun h => ?_⟩
    · obtain ⟨h1, rfl⟩ := hM
      rw [if_neg (by omega)]
      exact ⟨rfl, rfl, h1⟩
    · rw [if_pos]
      by_contra hd
      exact h _ ⟨by omega, rfl⟩
  | obj N =>
    have hN := (ha N rfl).dim_pos
    unfold initSpacetime
    simp only [bind, Except.bind]
    refine ⟨fun M hM => ?_, fun h => ?_⟩
    · obtain ⟨rfl, h1⟩ := hM
      rw [if_neg (by simp [h1])]
      exact ⟨rfl, h1, by omega⟩
    · rw [if_pos]
      intro h1
      exact h N ⟨rfl, by exact_mod_cast h1⟩
  | name s =>
    have half : (0.5 : ℝ) = 1 / 2 := by norm_num
    by_cases h1 : s = "flat" ∨ s = "Minkowski"
    · have hs : initSpacetime (.name s) d = initSpacetime .none d := by
        unfold initSpacetime spacetimeByName
        simp only [if_pos h1]
      rw [hs, hflat]
      have hne : s ∉ ["dS", "de Sitter"] ∧ s ∉ ["AdS", "Anti-de Sitter"] ∧ s ∉ ["black hole", "Schwarzschild"] := by
        rcases h1 with rfl | rfl <;> decide
      have hin : s ∈ ["flat", "Minkowski"] := by simpa using h1
      simp only [SpacetimeArg.Means, hne, hin, false_and, or_false, true_and]
      refine ⟨fun M hM => ?_, fun h => ?_⟩
      · obtain ⟨h1, rfl⟩ := hM
        rw [if_neg (by omega)]
        exact ⟨rfl, rfl, h1⟩
      · rw [if_pos]
        by_contra hd
        exact h _ ⟨by omega, rfl⟩
    by_cases h2 : s = "dS" ∨ s = "de Sitter"
    · have hs : initSpacetime (.name s) d = if d < 2 then .error .valueError else .ok (.deSitter d 1) := by
        unfold initSpacetime spacetimeByName
        simp only [if_neg h1, if_pos h2, dSInit_pos _ one_pos]
        by_cases hd : d < 2
        · rw [if_pos (by omega), if_pos hd]; rfl
        · rw [if_neg (by omega), if_neg hd]
          simp [Except.map, bind, Except.bind, SpacetimeObj.dim]
      rw [hs]
      have hne : s ∉ ["flat", "Minkowski"] ∧ s ∉ ["AdS", "Anti-de Sitter"] ∧ s ∉ ["black hole", "Schwarzschild"] := by
        rcases h2 with rfl | rfl <;> decide
      have hin : s ∈ ["dS", "de Sitter"] := by simpa using h2
      simp only [SpacetimeArg.Means, hne, hin, false_and, or_false, false_or, true_and]
      refine ⟨fun M hM => ?_, fun h => ?_⟩
      · obtain ⟨h1, rfl⟩ := hM
        rw [if_neg (by omega)]
        exact ⟨rfl, rfl, by omega⟩
      · rw [if_pos]
        by_contra hd
        exact h _ ⟨by omega, rfl⟩
    by_cases h3 : s = "AdS" ∨ s = "Anti-de Sitter"
    · have hs : initSpacetime (.name s) d = if d < 2 then .error .valueError else .ok (.antiDeSitter d (1 / 2)) := by
        unfold initSpacetime spacetimeByName
        simp only [if_neg h1, if_neg h2, if_pos h3, half, dSInit_pos _ (one_half_pos (α := ℝ))]
        by_cases hd : d < 2
        · rw [if_pos (by omega), if_pos hd]; rfl
        · rw [if_neg (by omega), if_neg hd]
          simp [Except.map, bind, Except.bind, SpacetimeObj.dim]
      rw [hs]
      have hne : s ∉ ["flat", "Minkowski"] ∧ s ∉ ["dS", "de Sitter"] ∧ s ∉ ["black hole", "Schwarzschild"] := by
        rcases h3 with rfl | rfl <;> decide
      have hin : s ∈ ["AdS", "Anti-de Sitter"] := by simpa using h3
      simp only [SpacetimeArg.Means, hne, hin, false_and, or_false, false_or, true_and]
      refine ⟨fun M hM => ?_, fun h => ?_⟩
      · obtain ⟨h1, rfl⟩ := hM
        rw [if_neg (by omega)]
        exact ⟨rfl, rfl, by omega⟩
      · rw [if_pos]
        by_contra hd
        exact h _ ⟨by omega, rfl⟩
    by_cases h4 : s = "black hole" ∨ s = "Schwarzschild"
    · have hs : initSpacetime (.name s) d = if d = 2 then .ok (.blackHole (1 / 2) .eddingtonFinkelstein) else .error .valueError := by
        unfold initSpacetime spacetimeByName
        simp only [if_neg h1, if_neg h2, if_neg h3, if_pos h4, bhInit_default]
        by_cases hd : d = 2
        · rw [if_pos (by omega), if_pos hd, hd, half]
          simp [Except.map, bind, Except.bind, SpacetimeObj.dim]
        · rw [if_neg (by omega), if_neg hd]; rfl
      rw [hs]
      have hne : s ∉ ["flat", "Minkowski"] ∧ s ∉ ["dS", "de Sitter"] ∧ s ∉ ["AdS", "Anti-de Sitter"] := by
        rcases h4 with rfl | rfl <;> decide
      have hin : s ∈ ["black hole", "Schwarzschild"] := by simpa using h4
      simp only [SpacetimeArg.Means, hne, hin, false_and, false_or, true_and]
      refine ⟨fun M hM => ?_, fun h => ?_⟩
      · obtain ⟨rfl, rfl⟩ := hM
        rw [if_pos rfl]
        exact ⟨rfl, rfl, by omega⟩
      · rw [if_neg]
        intro hd
        exact h _ ⟨hd, rfl⟩
    · have hs : initSpacetime (.name s) d = .error .valueError := by
        unfold initSpacetime spacetimeByName
        simp only [if_neg h1, if_neg h2, if_neg h3, if_neg h4]
        rfl
      rw [hs]
      refine ⟨fun M hM => ?_, fun _ => rfl⟩
      simp only [SpacetimeArg.Means, List.mem_cons, List.not_mem_nil, or_false] at hM
      rcases hM with h | h | h | h
      · exact absurd h.1 h1
      · exact absurd h.1 h2
      · exact absurd h.1 h3
      · exact absurd h.1 h4

/-- the default shape -/
theorem defaultShape_spec (M : SpacetimeObj) (hd : 1 ≤ M.dim) : ∃ D, M.defaultShape = .ok D ∧ D.dim = M.dim ∧
    CoordinateShape.init M.dim M.defaultRegion {} = .ok D := by
  have hm : M.defaultShape = CoordinateShape.init M.dim M.defaultRegion {} := by
    cases M <;> rfl
  have hin : M.defaultRegion ∈ ["ball", "bicone", "diamond", "cylinder", "cube", "cuboid"] := by
    cases M with
    | flat M => simp only [SpacetimeObj.defaultRegion]; split <;> decide
    | _ => simp [SpacetimeObj.defaultRegion]
  obtain ⟨S, h1, h2, -⟩ := (shapeInit_name M.dim M.defaultRegion).1 ⟨hd, hin⟩
  exact ⟨S, by rw [hm, h1], h2, h1⟩

/-- the shape stage -/
theorem initShape_spec (a : ShapeArg) (D : CoordinateShape) (dflt : String) (d : ℕ) (hd : 1 ≤ d) (hD : CoordinateShape.init d dflt {} = .ok D)
    (hDd : D.dim = d) :
    (∀ S, a.Means dflt d S → initShape a D d = .ok S ∧ S.dim = d) ∧ ((∀ S, ¬ a.Means dflt d S) → initShape a D d = .error .valueError) := by
  unfold initShape
  cases a with
  | none =>
    simp only [ShapeArg.Means, bind, Except.bind]
    refine ⟨fun S hS => ?_, fun h => absurd hD (h D)⟩
    rw [hS] at hD
    rw [Except.ok.inj hD]
    simp [hDd]
  | obj T =>
    simp only [ShapeArg.Means, bind, Except.bind]
    refine ⟨fun S hS => ?_, fun h => ?_⟩
    · obtain ⟨rfl, h1⟩ := hS
      rw [if_neg (by simp [h1, hDd])]
      exact ⟨rfl, h1⟩
    · rw [if_pos]
      intro h1
      exact h T ⟨rfl, by rw [h1, hDd]⟩
  | name s =>
    simp only [ShapeArg.Means, bind, Except.bind]
    obtain ⟨k1, k2⟩ := shapeInit_name d s
    refine ⟨fun S hS => ?_, fun h => ?_⟩
    · obtain ⟨h1, h2⟩ := hS
      obtain ⟨S', h3, h4, -⟩ := k1 ⟨hd, h1⟩
      rw [h2] at h3
      rw [h2]
      rw [Except.ok.inj h3]
      simp [h4, hDd]
    · by_cases hs : s ∈ ["ball", "bicone", "diamond", "cylinder", "cube", "cuboid"]
      · obtain ⟨S', h3, -⟩ := k1 ⟨hd, hs⟩
        exact absurd ⟨hs, h3⟩ (h S')
      · rw [k2 (fun hh => hs hh.2)]

/-- the dimension stage -/
theorem initDim_ok (sp : SpacetimeArg) (sh : ShapeArg) (co : CoordsArg) (dim : ℤ) (hn : ¬ NoDimension sp sh co dim) :
    ∃ d : ℕ, initDim sp sh co dim = .ok (d : ℤ) ∧ (Unspecified sp sh co dim → d = 2) ∧ (dim ≤ 0 ∨ dim = d) ∧
      ∀ d' M S, Compatible sp sh co dim d' M S → d' = d := by
  unfold initDim
  by_cases hdim : dim ≤ 0
  swap
  · rw [if_neg hdim]
    refine ⟨dim.toNat, by rw [Int.toNat_of_nonneg (by omega)], fun h => absurd h.1 hdim, Or.inr (by omega), fun d' M S h => ?_⟩
    have := h.2.1
    omega
  rw [if_pos hdim]
  cases sp with
  | obj M => exact ⟨M.dim, rfl, fun h => absurd rfl (h.2.1 M), Or.inl hdim, fun d' N S h => h.2.2.1.2.symm⟩
  | none =>
    cases sh with
    | obj S => exact ⟨S.dim, rfl, fun h => absurd rfl (h.2.2.1 S), Or.inl hdim, fun d' N T h => h.2.2.2.1.2.symm⟩
    | none =>
      cases co with
      | none => exact ⟨2, rfl, fun _ => rfl, Or.inl hdim, fun d' N T h => h.1 ⟨hdim, by simp, by simp, rfl⟩⟩
      | rows rs => cases rs with
        | nil => exact absurd ⟨hdim, rfl⟩ hn
        | cons r rs => exact ⟨r.length, rfl, fun h => absurd h.2.2.2 (by simp), Or.inl hdim, fun d' N T h => (h.2.2.2.2 r (by simp)).symm⟩
      | matrix cols rs => cases rs with
        | nil => exact absurd ⟨hdim, rfl⟩ hn
        | cons r rs => exact ⟨cols, rfl, fun h => absurd h.2.2.2 (by simp), Or.inl hdim, fun d' N T h => h.2.2.2.2.symm⟩
      | vector n => exact absurd hdim hn
    | name s =>
      cases co with
      | none => exact ⟨2, rfl, fun _ => rfl, Or.inl hdim, fun d' N T h => h.1 ⟨hdim, by simp, by simp, rfl⟩⟩
      | rows rs => cases rs with
        | nil => exact absurd ⟨hdim, rfl⟩ hn
        | cons r rs => exact ⟨r.length, rfl, fun h => absurd h.2.2.2 (by simp), Or.inl hdim, fun d' N T h => (h.2.2.2.2 r (by simp)).symm⟩
      | matrix cols rs => cases rs with
        | nil => exact absurd ⟨hdim, rfl⟩ hn
        | cons r rs => exact ⟨cols, rfl, fun h => absurd h.2.2.2 (by simp), Or.inl hdim, fun d' N T h => h.2.2.2.2.symm⟩
      | vector n => exact absurd hdim hn
  | name s0 =>
    cases sh with
    | obj S => exact ⟨S.dim, rfl, fun h => absurd rfl (h.2.2.1 S), Or.inl hdim, fun d' N T h => h.2.2.2.1.2.symm⟩
    | none =>
      cases co with
      | none => exact ⟨2, rfl, fun _ => rfl, Or.inl hdim, fun d' N T h => h.1 ⟨hdim, by simp, by simp, rfl⟩⟩
      | rows rs => cases rs with
        | nil => exact absurd ⟨hdim, rfl⟩ hn
        | cons r rs => exact ⟨r.length, rfl, fun h => absurd h.2.2.2 (by simp), Or.inl hdim, fun d' N T h => (h.2.2.2.2 r (by simp)).symm⟩
      | matrix cols rs => cases rs with
        | nil => exact absurd ⟨hdim, rfl⟩ hn
        | cons r rs => exact ⟨cols, rfl, fun h => absurd h.2.2.2 (by simp), Or.inl hdim, fun d' N T h => h.2.2.2.2.symm⟩
      | vector n => exact absurd hdim hn
    | name s =>
      cases co with
      | none => exact ⟨2, rfl, fun _ => rfl, Or.inl hdim, fun d' N T h => h.1 ⟨hdim, by simp, by simp, rfl⟩⟩
      | rows rs => cases rs with
        | nil => exact absurd ⟨hdim, rfl⟩ hn
        | cons r rs => exact ⟨r.length, rfl, fun h => absurd h.2.2.2 (by simp), Or.inl hdim, fun d' N T h => (h.2.2.2.2 r (by simp)).symm⟩
      | matrix cols rs => cases rs with
        | nil => exact absurd ⟨hdim, rfl⟩ hn
        | cons r rs => exact ⟨cols, rfl, fun h => absurd h.2.2.2 (by simp), Or.inl hdim, fun d' N T h => h.2.2.2.2.symm⟩
      | vector n => exact absurd hdim hn

/-- the arguments as the constructor accepts them: all but rows of the right length -/
theorem embArgs_stages (sp : SpacetimeArg) (sh : ShapeArg) (co : CoordsArg) (dim : ℤ) (hsp : ∀ N, sp = .obj N → N.Constructed)
    (hn : ¬ NoDimension sp sh co dim) :
    (∃ d M S D, initDim sp sh co dim = .ok ((d : ℕ) : ℤ) ∧ (Unspecified sp sh co dim → d = 2) ∧ (dim ≤ 0 ∨ dim = d) ∧ sp.Means d M ∧
        sh.Means M.defaultRegion d S ∧ D = d ∧
        (∀ d' M S, Compatible sp sh co dim d' M S → d' = d) ∧
        embArgs sp sh co dim = (initCoords co D).map (fun xs => (M, S, xs))) ∨
      (embArgs sp sh co dim = .error .valueError ∧ ∀ d M S, ¬ Compatible sp sh co dim d M S) := by
  obtain ⟨d, h1, h2, h3, h4⟩ := initDim_ok sp sh co dim hn
  obtain ⟨k1, k2⟩ := initSpacetime_spec sp d hsp
  by_cases hM : ∃ M, sp.Means d M
  swap
  · push Not at hM
    refine Or.inr ⟨?_, fun d' M S h => ?_⟩
    · unfold embArgs; rw [h1]; simp only [bind, Except.bind]; rw [k2 hM]
    · have := h4 d' M S h; subst this; exact hM M h.2.2.1
  obtain ⟨M, hM⟩ := hM
  obtain ⟨m1, m2, m3⟩ := k1 M hM
  obtain ⟨D, q1, q2, q3⟩ := defaultShape_spec M (by omega)
  rw [m2] at q2 q3
  obtain ⟨s1, s2⟩ := initShape_spec sh D M.defaultRegion d m3 q3 q2
  by_cases hS : ∃ S, sh.Means M.defaultRegion d S
  swap
  · push Not at hS
    refine Or.inr ⟨?_, fun d' M' S h => ?_⟩
    · unfold embArgs; rw [h1]; simp only [bind, Except.bind]; rw [m1]; simp only; rw [q1]; simp only; rw [s2 hS]
    · have := h4 d' M' S h; subst this
      have h5 := (k1 M' h.2.2.1).1
      rw [m1] at h5
      rw [← Except.ok.inj h5] at h
      exact hS S h.2.2.2.1
  obtain ⟨S, hS⟩ := hS
  refine Or.inl ⟨d, M, S, d, h1, h2, h3, hM, hS, rfl, h4, ?_⟩
  unfold embArgs; rw [h1]; simp only [bind, Except.bind]; rw [m1]; simp only; rw [q1]; simp only; rw [(s1 S hS).1]; simp only [q2]
  cases initCoords co d <;> rfl

/-- the dimension, the spacetime and the shape are determined by the arguments -/
theorem Compatible.unique {sp : SpacetimeArg} {sh : ShapeArg} {co : CoordsArg} {dim : ℤ} (hsp : ∀ N, sp = .obj N → N.Constructed)
    {d : ℕ} {M M' : SpacetimeObj} {S S' : CoordinateShape}
    (h : Compatible sp sh co dim d M S) (h' : Compatible sp sh co dim d M' S') : M = M' ∧ S = S' := by
  have hM : M = M' := by
    have h1 := ((initSpacetime_spec sp d hsp).1 M h.2.2.1)
    have h2 := ((initSpacetime_spec sp d hsp).1 M' h'.2.2.1)
    rw [h1.1] at h2
    exact Except.ok.inj h2.1
  subst hM
  refine ⟨rfl, ?_⟩
  have h1 := h.2.2.2.1
  have h2 := h'.2.2.2.1
  cases sh with
  | none => simp only [ShapeArg.Means] at h1 h2; rw [h1] at h2; exact Except.ok.inj h2
  | name s => simp only [ShapeArg.Means] at h1 h2; rw [h1.2] at h2; exact Except.ok.inj h2.2
  | obj T => simp only [ShapeArg.Means] at h1 h2; rw [h1.1, h2.1]

/-- **C81, arguments.** If the four arguments of `EmbeddedCauset(...)` are compatible, the constructor chooses exactly the spacetime and the shape
they stand for (and creates events for the rows of the coordinates, if any are given). -/
theorem C81_accepts (sp : SpacetimeArg) (sh : ShapeArg) (co : CoordsArg) (dim : ℤ) (hsp : ∀ N, sp = .obj N → N.Constructed)
    (hn : ¬ NoDimension sp sh co dim) {d : ℕ} {M : SpacetimeObj} {S : CoordinateShape} (hc : Compatible sp sh co dim d M S) :
    embArgs sp sh co dim = .ok (M, S, co.given) := by
  rcases embArgs_stages sp sh co dim hsp hn with ⟨d', M', S', D, -, h2, h3, h4, h5, rfl, h6, h7⟩ | ⟨-, h⟩
  · have hd := h6 d M S hc
    subst hd
    have hc' : Compatible sp sh co dim d M' S' := ⟨h2, h3, h4, h5, hc.2.2.2.2⟩
    obtain ⟨rfl, rfl⟩ := hc.unique hsp hc'
    rw [h7]
    have hco := hc.2.2.2.2
    cases co with
    | none => rfl
    | rows rs => simp [initCoords, Except.map, CoordsArg.points, CoordsArg.given]; exact fun a _ => rowPoint_eq a
    | matrix cols rs =>
      simp only [CoordsArg.HasDim] at hco
      subst hco
      simp [initCoords, Except.map, CoordsArg.points, CoordsArg.given]; exact fun a _ => rowPoint_ofFn a
    | vector n => exact absurd hco (by simp [CoordsArg.HasDim])
  · exact absurd hc (h d M S)

/-- **C81, incompatible arguments.** For coordinates given as an array (or none), `ValueError` is raised exactly if no dimension fits all arguments. -/
theorem C81_rejects_partial (sp : SpacetimeArg) (sh : ShapeArg) (co : CoordsArg) (dim : ℤ) (hsp : ∀ N, sp = .obj N → N.Constructed)
    (hn : ¬ NoDimension sp sh co dim) (hrows : ∀ rs, co ≠ .rows rs) :
    (∀ d M S, ¬ Compatible sp sh co dim d M S) ↔ embArgs sp sh co dim = .error .valueError := by
  constructor
  · intro h
    rcases embArgs_stages sp sh co dim hsp hn with ⟨d', M', S', D, -, h2, h3, h4, h5, rfl, h6, h7⟩ | ⟨h1, -⟩
    · rw [h7]
      have hco : ¬ co.HasDim D := fun hco => h D M' S' ⟨h2, h3, h4, h5, hco⟩
      cases co with
      | none => exact absurd trivial hco
      | rows rs => exact absurd rfl (hrows rs)
      | matrix cols rs => simp only [CoordsArg.HasDim] at hco; simp [initCoords, hco, Except.map]
      | vector n => rfl
    · exact h1
  · intro h d M S hc
    rw [C81_accepts sp sh co dim hsp hn hc] at h
    exact absurd h (by simp)

/-- **C81, no dimension.** Without any row to take the dimension from, the constructor raises IndexError, for a vector of numbers TypeError. -/
theorem C81_no_dimension (sp : SpacetimeArg) (sh : ShapeArg) (co : CoordsArg) (dim : ℤ) (hn : NoDimension sp sh co dim) :
    embArgs sp sh co dim = .error (match co with | .vector (_ + 1) => .typeError | _ => .indexError) := by
  have hd : initDim sp sh co dim = .error (match co with | .vector (_ + 1) => .typeError | _ => .indexError) := by
    unfold initDim
    cases sp with
    | obj M => exact absurd hn (by simp [NoDimension])
    | none =>
      cases sh with
      | obj S => exact absurd hn (by simp [NoDimension])
      | none =>
        cases co with
        | none => exact absurd hn (by simp [NoDimension])
        | rows rs => obtain ⟨h1, rfl⟩ := hn; rw [if_pos h1]
        | matrix c rs => obtain ⟨h1, rfl⟩ := hn; rw [if_pos h1]
        | vector n => rw [if_pos (show dim ≤ 0 from hn)]; cases n <;> rfl
      | name s =>
        cases co with
        | none => exact absurd hn (by simp [NoDimension])
        | rows rs => obtain ⟨h1, rfl⟩ := hn; rw [if_pos h1]
        | matrix c rs => obtain ⟨h1, rfl⟩ := hn; rw [if_pos h1]
        | vector n => rw [if_pos (show dim ≤ 0 from hn)]; cases n <;> rfl
    | name s0 =>
      cases sh with
      | obj S => exact absurd hn (by simp [NoDimension])
      | none =>
        cases co with
        | none => exact absurd hn (by simp [NoDimension])
        | rows rs => obtain ⟨h1, rfl⟩ := hn; rw [if_pos h1]
        | matrix c rs => obtain ⟨h1, rfl⟩ := hn; rw [if_pos h1]
        | vector n => rw [if_pos (show dim ≤ 0 from hn)]; cases n <;> rfl
      | name s =>
        cases co with
        | none => exact absurd hn (by simp [NoDimension])
        | rows rs => obtain ⟨h1, rfl⟩ := hn; rw [if_pos h1]
        | matrix c rs => obtain ⟨h1, rfl⟩ := hn; rw [if_pos h1]
        | vector n => rw [if_pos (show dim ≤ 0 from hn)]; cases n <;> rfl
  unfold embArgs
  rw [hd]
  rfl

/-- **C81.** If the arguments are compatible (and determine a dimension), `EmbeddedCauset(...)` succeeds whatever the spacetime: the
object has the spacetime and the shape the arguments stand for, all three dimensions (`Dim`, spacetime, shape) are `d`, and one event has been
created for each row: labelled `1, 2, ...` and with the coordinates of the row; older events are untouched. -/
theorem C81_init (eps : ℝ) (it : Iter) (sp : SpacetimeArg) (sh : ShapeArg) (co : CoordsArg) (dim : ℤ) (hsp : ∀ N, sp = .obj N → N.Constructed)
    (hn : ¬ NoDimension sp sh co dim) {d : ℕ} {M : SpacetimeObj} {S : CoordinateShape} (hc : Compatible sp sh co dim d M S) (w : World Point) :
    ∃ (ids : List EId) (w' : World Point), embInit eps it sp sh co dim w = (.ok ⟨M, S, ids.toFinset⟩, w') ∧ M.dim = d ∧
      EmbObj.dim ⟨M, S, ids.toFinset⟩ = d ∧ ids.length = co.points.length ∧ ids.Nodup ∧
      (∀ e ∈ ids, ¬ w.heap.Exists e ∧ w'.heap.Exists e) ∧
      (∀ (i : ℕ) e, ids[i]? = some e → w'.heap.label e = some (.int ((i : ℕ) + 1)) ∧ w'.crd e = co.points[i]?) ∧
      (∀ e, w.heap.Exists e → w'.heap.Exists e ∧ w'.heap.label e = w.heap.label e ∧ w'.crd e = w.crd e) := by
  have ha := C81_accepts sp sh co dim hsp hn hc
  obtain ⟨m1, m2, m3⟩ := (initSpacetime_spec sp d hsp).1 M hc.2.2.1
  obtain ⟨D, q1, q2, q3⟩ := defaultShape_spec M (by omega)
  rw [m2] at q2 q3
  obtain ⟨-, hSd⟩ := (initShape_spec sh D M.defaultRegion d m3 q3 q2).1 S hc.2.2.2.1
  by_cases hco : co = .none
  · rw [show co.given = none by rw [hco]; rfl] at ha
    refine ⟨[], w, ?_, m2, hSd, by rw [hco]; rfl, List.nodup_nil, by simp, by simp, fun e he => ⟨he, rfl, rfl⟩⟩
    unfold embInit
    rw [ha]
    rfl
  · rw [CoordsArg.given_some hco] at ha
    have hok := C46_create_ok (M.causality eps) it ∅ co.points none true w (by simp) (by simp)
    obtain ⟨ids, i1, i2, i3, i4, i5, i6, i7⟩ := C46_create (M.causality eps) it ∅ co.points none true w (by simp) (by simp)
    rw [Finset.empty_union] at i4
    refine ⟨ids, (create (M.causality eps) it ∅ co.points none true w).2.2.2, ?_, m2, hSd, i1, i2, i5, fun i e hi => ?_, i7⟩
    · unfold embInit
      rw [ha]
      dsimp only
      rw [hok]
      dsimp only
      rw [i4]
    · obtain ⟨j1, j2⟩ := i6 i e hi
      refine ⟨?_, j2⟩
      rw [j1]
      simp [mkLabel, add_comm]

/-- **C81, causality.** If the causality function of the spacetime describes a causal order on the points of the rows (see C43, C44) and no two
of them precede each other mutually, the events are ordered exactly by the causality of their coordinates. -/
theorem C81_order (eps : ℝ) (it : Iter) (sp : SpacetimeArg) (sh : ShapeArg) (co : CoordsArg) (dim : ℤ) (hsp : ∀ N, sp = .obj N → N.Constructed)
    (hn : ¬ NoDimension sp sh co dim) {d : ℕ} {M : SpacetimeObj} {S : CoordinateShape} (hc : Compatible sp sh co dim d M S)
    (w : World Point) (v : w.heap.Valid) (lx : w.heap.LinksExact) (P : Set Point) (hP : IsCausalOrder (M.causality eps) P)
    (hin : ∀ x ∈ co.points, x ∈ P)
    (hdist : ∀ (i j : ℕ) x y, co.points[i]? = some x → co.points[j]? = some y → i ≠ j → ¬ ((M.causality eps x y).1 = true ∧ (M.causality eps y x).1 = true)) :
    ∃ (ids : List EId) (w' : World Point), embInit eps it sp sh co dim w = (.ok ⟨M, S, ids.toFinset⟩, w') ∧ ids.Nodup ∧
      ids.length = co.points.length ∧ w'.heap.Valid ∧ w'.heap.LinksExact ∧ (∀ e ∈ ids, co ≠ .none → w'.heap.hasBeenLinked e = true) ∧
      (∀ (i : ℕ) e, ids[i]? = some e → w'.crd e = co.points[i]?) ∧
      (∀ (i j : ℕ) a b x y, ids[i]? = some a → ids[j]? = some b → co.points[i]? = some x → co.points[j]? = some y →
        (w'.heap.Lt a b ↔ i ≠ j ∧ (M.causality eps x y).1 = true)) ∧
      (∀ a b, a ∉ ids ∨ b ∉ ids → (w'.heap.Lt a b ↔ w.heap.Lt a b)) := by
  obtain ⟨ids, w', h1, -, -, h4, h5, h6, h7, h8⟩ := C81_init eps it sp sh co dim hsp hn hc w
  have ha := C81_accepts sp sh co dim hsp hn hc
  by_cases hco : co = .none
  · rw [show co.given = none by rw [hco]; rfl] at ha
    have hw : w' = w ∧ ids = [] := by
      refine ⟨?_, by rw [hco] at h4; exact List.length_eq_zero_iff.1 h4⟩
      unfold embInit at h1
      rw [ha] at h1
      exact (congrArg Prod.snd h1).symm
    obtain ⟨rfl, rfl⟩ := hw
    exact ⟨[], w', h1, h5, h4, v, lx, by simp, by simp, by simp, fun _ _ _ => Iff.rfl⟩
  rw [CoordsArg.given_some hco] at ha
  obtain ⟨k0, k1, k2, k3, k4, k5, k6, k7, k8⟩ := C42_create (M.causality eps) P hP it ∅ co.points none w v lx (by simp) (by intro x hx; simp at hx)
    (by simp) hin
  have hw : w' = (create (M.causality eps) it ∅ co.points none true w).2.2.2 ∧ ids.toFinset = (create (M.causality eps) it ∅ co.points none true w).1 := by
    unfold embInit at h1
    rw [ha] at h1
    dsimp only at h1
    rw [k0] at h1
    dsimp only at h1
    refine ⟨(congrArg Prod.snd h1).symm, ?_⟩
    have := congrArg Prod.fst h1
    have := Except.ok.inj this
    exact (congrArg EmbObj.events this).symm
  obtain ⟨hw, hids⟩ := hw
  rw [← hw] at k1 k2 k3 k4 k5 k6 k7 k8
  rw [← hids] at k3 k4 k5 k6 k7 k8
  have hcrd : ∀ e ∈ ids, ∀ x, w'.crd e = some x → ∃ i : ℕ, ids[i]? = some e ∧ co.points[i]? = some x := by
    intro e he x hx
    obtain ⟨i, hi⟩ := List.getElem?_of_mem he
    refine ⟨i, hi, ?_⟩
    rw [← (h7 i e hi).2, hx]
  refine ⟨ids, w', h1, h5, h4, k1, k2, fun e he _ => k5 e (by simpa using he), fun i e hi => (h7 i e hi).2, ?_, ?_⟩
  · intro i j a b x y hi hj hx hy
    have hai : a ∈ ids := List.mem_of_getElem? hi
    have hbj : b ∈ ids := List.mem_of_getElem? hj
    have h9 := k7 ?_ a (by simpa using hai) b (by simpa using hbj) x y (by rw [(h7 i a hi).2, hx]) (by rw [(h7 j b hj).2, hy])
    · rw [h9]
      have : a = b ↔ i = j := by
        constructor
        · rintro rfl
          exact (List.getElem?_inj (List.getElem?_eq_some_iff.1 hi).1 h5).1 (hi.trans hj.symm)
        · rintro rfl
          rw [hi] at hj
          exact Option.some.inj hj
      rw [Ne, Ne, this]
    · intro a ha b hb x y hx hy hab
      obtain ⟨i, hi, hxi⟩ := hcrd a (by simpa using ha) x hx
      obtain ⟨j, hj, hyj⟩ := hcrd b (by simpa using hb) y hy
      refine hdist i j x y hxi hyj ?_
      rintro rfl
      rw [hi] at hj
      exact hab (Option.some.inj hj)
  · intro a b hab
    exact k8 a b (by simpa using hab)

/-- **C81, refuted for lists of rows.** The documentation promises a ValueError if the dimensions of the arguments are not compatible.  Rows in
a list are not checked: for any lengths of the rows the constructor accepts them, e.g. three coordinates for an event in a 2-dimensional spacetime. -/
theorem C81_rows_refuted (rs : List (List ℝ)) (dim : ℤ) (hd : 1 ≤ dim) (r : List ℝ) (hr : r ∈ rs) (hlen : (r.length : ℤ) ≠ dim) :
    (∀ d M S, ¬ Compatible .none .none (.rows rs) dim d M S) ∧ ∃ M S xs, embArgs .none .none (.rows rs) dim = .ok (M, S, some xs) := by
  refine ⟨fun d M S hc => ?_, ?_⟩
  · have h1 := hc.2.1
    have h2 := hc.2.2.2.2 r hr
    omega
  · have hn : ¬ NoDimension .none .none (.rows rs) dim := fun h => by have := h.1; omega
    rcases embArgs_stages .none .none (.rows rs) dim (by simp) hn with ⟨d, M, S, D, -, -, -, -, -, -, -, h⟩ | ⟨h, -⟩
    · exact ⟨M, S, rs.map rowPoint, h⟩
    · have h5 : embArgs .none .none .none dim = .error .valueError := by
        unfold embArgs initDim at h ⊢
        rw [if_neg (by omega)] at h ⊢
        simp only [bind, Except.bind, initCoords] at h ⊢
        generalize initSpacetime .none dim = a at h ⊢
        cases a with
        | error x => exact h
        | ok M =>
          simp only at h ⊢
          generalize M.defaultShape = b at h ⊢
          cases b with
          | error x => exact h
          | ok D =>
            simp only at h ⊢
            generalize initShape .none D dim = b at h ⊢
            cases b with
            | error x => exact h
            | ok S => exact absurd h (by simp)
      obtain ⟨d, rfl⟩ : ∃ d : ℕ, dim = d := ⟨dim.toNat, by omega⟩
      have hS := (shapeInit_name d "diamond").1 ⟨by omega, by decide⟩
      obtain ⟨S, hS, -⟩ := hS
      rw [C81_accepts .none .none .none (d : ℤ) (by simp) (by simp [NoDimension]) (d := d) (M := .flat ⟨d, false, none⟩) (S := S)
        ⟨fun h => absurd h.1 (by omega), Or.inr rfl, ⟨by omega, rfl⟩, hS, trivial⟩] at h5
      exact absurd h5 (by simp)

/-- hypotheses satisfiable: `EmbeddedCauset(spacetime='de Sitter', shape='ball', coordinates=<2 x 3 matrix>)` -/
example : ∃ S, Compatible (.name "de Sitter") (.name "ball") (.matrix 3 [![0, 0, 0], ![1, 0, 0]]) (-1) 3 (.deSitter 3 1) S ∧
    ¬ NoDimension (.name "de Sitter") (.name "ball") (.matrix 3 [![0, 0, 0], ![1, 0, 0]]) (-1) := by
  obtain ⟨S, hS, -⟩ := (shapeInit_name 3 "ball").1 ⟨by norm_num, by decide⟩
  refine ⟨S, ⟨fun h => absurd h.2.2.2 (by simp), Or.inl (by norm_num), Or.inr (Or.inl ⟨by decide, by norm_num, rfl⟩), ⟨by decide, hS⟩, rfl⟩, ?_⟩
  simp [NoDimension]

/-- incompatible arguments: a cylinder in 4 dimensions in a 3-dimensional de Sitter spacetime -/
example : ∃ S, CoordinateShape.init 4 "cylinder" {} = .ok S ∧ embArgs (.obj (.deSitter 3 1)) (.obj S) .none (-1) = .error .valueError := by
  obtain ⟨S, hS, hd, -⟩ := (shapeInit_name 4 "cylinder").1 ⟨by norm_num, by decide⟩
  refine ⟨S, hS, ?_⟩
  rw [← C81_rejects_partial _ _ _ _ (fun N hN => ?_) (by simp [NoDimension]) (by simp)]
  · rintro d M T ⟨-, -, h1, h2, -⟩
    have h3 : (SpacetimeObj.deSitter 3 1).dim = d := h1.2
    have h4 : S.dim = d := h2.2
    simp only [SpacetimeObj.dim] at h3
    omega
  · have := SpacetimeArg.obj.inj hN
    subst this
    exact ⟨3, by simp [dSInit, test]⟩

/-- the model of `FromPermutation` (C45) is the constructor with the shape `CoordinateShape(2, 'diamond', radius=radius)`, followed by `create` -/
theorem embFromPermutation_init (eps : ℝ) (it : Iter) (junk : ℕ → Point) (P : List ℤ) (fmt : Option (ℕ → String)) (radius : ℝ) (w : World Point) :
    (radius ≤ 0 → CoordinateShape.init 2 "diamond" { radius := some radius } = .error .valueError) ∧
    (0 < radius → ∃ S, CoordinateShape.init 2 "diamond" { radius := some radius } = .ok S ∧ S.name = "bicone" ∧ S.radius = some radius ∧
      ∃ M, embInit eps it .none (.obj S) .none (-1) w = (.ok ⟨M, S, ∅⟩, w) ∧ M.dim = 2 ∧ M.causality eps = causalityFlat2D eps ∧
        embFromPermutation eps it junk P fmt radius w = match permutationCoords junk P radius with
          | .error x => (.error x, w)
          | .ok rows =>
            let r := create (M.causality eps) it ∅ rows fmt true w
            match r.2.2.1 with
            | .error x => (.error x, r.2.2.2)
            | .ok _ => (.ok r.1, r.2.2.2)) := by
  have hv : ValidShape 2 "diamond" { radius := some radius } ↔ 0 < radius := by
    unfold ValidShape
    simp
  obtain ⟨h1, h2⟩ := C52_init 2 "diamond" { radius := some radius }
  rw [hv] at h1 h2
  refine ⟨fun h => h2 (not_lt.2 h), fun h => ?_⟩
  obtain ⟨S, g1, g2, g3, g4, -, g6, -⟩ := h1 h
  have hSd : S.dim = 2 := by exact_mod_cast g3
  refine ⟨S, g1, by simpa using g4, (g6 (by decide)).1, .flat ⟨2, false, none⟩, ?_, rfl, by simp [SpacetimeObj.causality, FlatSpacetime.causality], ?_⟩
  · have := C81_accepts .none (.obj S) .none (-1) (by simp) (by simp [NoDimension]) (d := 2) (M := .flat ⟨2, false, none⟩) (S := S)
      ⟨fun _ => rfl, Or.inl (by norm_num), ⟨by norm_num, rfl⟩, ⟨rfl, hSd⟩, trivial⟩
    unfold embInit
    rw [this]
    rfl
  · unfold embFromPermutation
    have h0 : test (radius ≤ 0) = false := by simp [test, h]
    rw [h0]
    simp only [Bool.false_eq_true, if_false]
    have hcaus : SpacetimeObj.causality eps (.flat ⟨2, false, none⟩) = causalityFlat2D eps := by simp [SpacetimeObj.causality, FlatSpacetime.causality]
    rw [hcaus]
    rfl

end Causets
