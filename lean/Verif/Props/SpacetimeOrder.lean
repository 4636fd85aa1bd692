import Verif.Props.EmbInit
import Verif.Props.ConeBH
import Verif.Props.Curved
import Verif.Props.Flat
import Mathlib.Analysis.SpecialFunctions.Trigonometric.DerivHyp

/-!
# C98 - embedded causets in the spacetimes of the library; C99 - names of spacetimes

C81 describes the constructor for a causality function that is a causal order on the points.  Here this is combined with C43 and C44: the causet that
`EmbeddedCauset(spacetime, ..., coordinates)` creates is ordered by the causal relation of the spacetime.
-/

namespace Causets

open Heap

/-- **Specification.** The causal relation of the spacetimes: Minkowski space or flat cylinder/torus; the hyperboloid in the ambient Minkowski spacetime for de Sitter (inside the
horizon); black holes by their light rays; time for the base class.  For anti-de Sitter spacetime it is the relation of the chord in the ambient space with two times, which is no order (C44). -/
def SpacetimeObj.Le : SpacetimeObj → Point → Point → Prop
  | .base, x, y => x 0 ≤ y 0
  | .flat M, x, y => TorusLe M.dim M.periods x y
  | .deSitter d a, x, y => InHorizon d a x ∧ InHorizon d a y ∧ MinkLe (d + 1) (dSEmbed d a x) (dSEmbed d a y)
  | .antiDeSitter d a, x, y =>
      let amp (z : Point) := Real.sqrt (a ^ 2 + ∑ i ∈ Finset.Ico 1 d, z i ^ 2)
      let dsin := amp y * Real.sin (y 0 / a) - amp x * Real.sin (x 0 / a)
      let dcos := amp y * Real.cos (y 0 / a) - amp x * Real.cos (x 0 / a)
      0 ≤ dsin ∧ ∑ i ∈ Finset.Ico 1 d, (y i - x i) ^ 2 ≤ dsin ^ 2 + dcos ^ 2
  | .blackHole r .eddingtonFinkelstein, x, y => EFLe r x y
  | .blackHole r .schwarzschild, x, y => SchwarzschildLe r x y

/-- **Specification.** Points for which the relation of the spacetime is meaningful: at most one period apart in a periodic flat spacetime, off the horizon of a black hole; for
anti-de Sitter spacetime, points on which the relation happens to be transitive. -/
def SpacetimeObj.Region : SpacetimeObj → Set Point → Prop
  | .flat M, P => ∀ x ∈ P, ∀ y ∈ P, InDomain M.dim M.periods x y
  | .antiDeSitter d a, P => ∀ x ∈ P, ∀ y ∈ P, ∀ z ∈ P, SpacetimeObj.Le (.antiDeSitter d a) x y → SpacetimeObj.Le (.antiDeSitter d a) y z → SpacetimeObj.Le (.antiDeSitter d a) x z
  | .blackHole r _, P => ∀ x ∈ P, |x 1| ≠ r
  | _, _ => True

/-- **C98, causality.** For every spacetime of the library (without tolerance), `Causality()` tells the causal relation of the spacetime, and the answer "after" is the reverse relation. -/
theorem C98_causality (M : SpacetimeObj) (hM : M.Constructed) (P : Set Point) (hP : M.Region P) :
    IsCausalOrder (M.causality 0) P ∧ ∀ x ∈ P, ∀ y ∈ P, (M.causality 0 x y).1 = true ↔ M.Le x y := by
  have hd := hM.dim_pos
  cases M with
  | base =>
    have h1 : ∀ x y : Point, (causalityBase x y).1 = true ↔ x 0 ≤ y 0 := fun x y => by simp [causalityBase, test]
    refine ⟨⟨fun x _ y _ z _ a b => ?_, fun x _ y _ => ?_⟩, fun x _ y _ => h1 x y⟩
    · exact (h1 x z).2 (((h1 x y).1 a).trans ((h1 y z).1 b))
    · show (causalityBase x y).2 = true ↔ _ ∧ (causalityBase x y).1 = false
      rw [← Bool.not_eq_true, h1]
      show _ ↔ (causalityBase y x).1 = true ∧ _
      rw [h1]
      simp only [causalityBase, test, decide_eq_true_eq]
      constructor
      · intro h; exact ⟨by linarith, by linarith⟩
      · rintro ⟨-, h⟩; linarith
  | flat M => exact ⟨C43_causal_order M hd P hP, fun x hx y hy => C43_order M x y hd (hP x hx y hy)⟩
  | deSitter d a =>
    obtain ⟨d', hd'⟩ := hM
    have h2 : 2 ≤ d := by
      unfold dSInit at hd'
      split at hd'
      · cases hd'
      · split at hd'
        · have := congrArg Prod.fst (Except.ok.inj hd'); simp only at this; omega
        · cases hd'
    refine ⟨⟨fun x _ y _ z _ => (C44_deSitter_order d h2 a).trans x (Set.mem_univ _) y (Set.mem_univ _) z (Set.mem_univ _),
      fun x _ y _ => (C44_deSitter_order d h2 a).after x (Set.mem_univ _) y (Set.mem_univ _)⟩, fun x _ y _ => C44_deSitter d h2 a x y⟩
  | antiDeSitter d a =>
    have key : ∀ x y : Point, (causalityAdS 0 d a x y).1 = true ↔ SpacetimeObj.Le (.antiDeSitter d a) x y := fun x y => by
      simp only [causalityAdS, SpacetimeObj.Le, test, spaceSq, Bool.and_eq_true, decide_eq_true_eq, sub_zero, ge_iff_le]
    exact ⟨⟨fun x hx y hy z hz a1 a2 => (key x z).2 (hP x hx y hy z hz ((key x y).1 a1) ((key y z).1 a2)), fun x _ y _ => (C44_AdS_directions_partial 0 d a x y).2⟩, fun x _ y _ => key x y⟩
  | blackHole r m =>
    obtain ⟨d', hd'⟩ := hM
    have hr : 0 < r := by
      unfold bhInit at hd'
      split at hd'
      · cases hd'
      · split at hd'
        · cases hd'
        · dsimp only at hd'
          split at hd'
          · rename_i h; simpa [test] using h
          · cases hd'
    cases m with
    | eddingtonFinkelstein =>
      have h := (C44_EF_order hr).1
      exact ⟨⟨fun x hx y hy z hz => h.trans x (hP x hx) y (hP y hy) z (hP z hz), fun x hx y hy => h.after x (hP x hx) y (hP y hy)⟩, fun x hx y hy => C44_EF hr x y (hP x hx) (hP y hy)⟩
    | schwarzschild =>
      have h := C44_Schwarzschild_order hr
      exact ⟨⟨fun x hx y hy z hz => h.trans x (hP x hx) y (hP y hy) z (hP z hz), fun x hx y hy => h.after x (hP x hx) y (hP y hy)⟩, fun x hx y hy => C44_Schwarzschild hr x y (hP x hx) (hP y hy)⟩

/-- **C98.** `EmbeddedCauset(spacetime, shape, coordinates, dim)` for compatible arguments creates one event for every row, in a causal set whose order is the causal relation of the
spacetime at the rows: event `i` precedes event `j` exactly if row `i` is in the causal past of row `j`.  Provided that the rows are in the region where the relation is meaningful, are
different points of spacetime (no two precede each other mutually), and no pair is so close to a light cone that the tolerance `eps` matters (always so for `eps = 0`). -/
theorem C98_embedded (eps : ℝ) (it : Iter) (sp : SpacetimeArg) (sh : ShapeArg) (co : CoordsArg) (dim : ℤ) (hsp : ∀ N, sp = .obj N → N.Constructed)
    (hn : ¬ NoDimension sp sh co dim) {d : ℕ} {M : SpacetimeObj} {S : CoordinateShape} (hc : Compatible sp sh co dim d M S) (hM : M.Constructed)
    (w : World Point) (v : w.heap.Valid) (lx : w.heap.LinksExact) (hP : M.Region {x | x ∈ co.points})
    (hgen : ∀ x ∈ co.points, ∀ y ∈ co.points, M.causality eps x y = M.causality 0 x y)
    (hdist : ∀ (i j : ℕ) x y, co.points[i]? = some x → co.points[j]? = some y → i ≠ j → ¬ (M.Le x y ∧ M.Le y x)) :
    ∃ (ids : List EId) (w' : World Point), embInit eps it sp sh co dim w = (.ok ⟨M, S, ids.toFinset⟩, w') ∧ ids.Nodup ∧
      ids.length = co.points.length ∧ w'.heap.Valid ∧ w'.heap.LinksExact ∧ (∀ e ∈ ids, ¬ w.heap.Exists e) ∧
      (∀ (i : ℕ) e, ids[i]? = some e → w'.crd e = co.points[i]?) ∧
      (∀ (i j : ℕ) a b x y, ids[i]? = some a → ids[j]? = some b → co.points[i]? = some x → co.points[j]? = some y →
        (w'.heap.Lt a b ↔ i ≠ j ∧ M.Le x y)) ∧
      (∀ a b, a ∉ ids ∨ b ∉ ids → (w'.heap.Lt a b ↔ w.heap.Lt a b)) := by
  obtain ⟨c1, c2⟩ := C98_causality M hM _ hP
  have hord : IsCausalOrder (M.causality eps) {x | x ∈ co.points} :=
    ⟨fun x hx y hy z hz => by rw [hgen x hx y hy, hgen y hy z hz, hgen x hx z hz]; exact c1.trans x hx y hy z hz,
      fun x hx y hy => by rw [hgen x hx y hy, hgen y hy x hx]; exact c1.after x hx y hy⟩
  have hle : ∀ x ∈ co.points, ∀ y ∈ co.points, (M.causality eps x y).1 = true ↔ M.Le x y := fun x hx y hy => by rw [hgen x hx y hy]; exact c2 x hx y hy
  obtain ⟨ids, w', a1, a2, a3, a4, a5, -, a7, a8, a9⟩ := C81_order eps it sp sh co dim hsp hn hc w v lx _ hord (fun x hx => hx)
    (fun i j x y hx hy hij hh => hdist i j x y hx hy hij
      ⟨(hle x (List.mem_of_getElem? hx) y (List.mem_of_getElem? hy)).1 hh.1, (hle y (List.mem_of_getElem? hy) x (List.mem_of_getElem? hx)).1 hh.2⟩)
  obtain ⟨ids', w'', b1, b2, b3, b4, b5, b6, b7⟩ := C81_init eps it sp sh co dim hsp hn hc w
  have hnew : ∀ e ∈ ids, ¬ w.heap.Exists e := by
    intro e he
    rw [a1] at b1
    have hev := congrArg EmbObj.events (Except.ok.inj (congrArg Prod.fst b1))
    have he' : e ∈ ids'.toFinset := by have : ids.toFinset = ids'.toFinset := hev; rw [← this]; exact List.mem_toFinset.2 he
    exact (b6 e (List.mem_toFinset.1 he')).1
  exact ⟨ids, w', a1, a2, a3, a4, a5, hnew, a7, fun i j a b x y hi hj hx hy => by
    rw [a8 i j a b x y hi hj hx hy, hle x (List.mem_of_getElem? hx) y (List.mem_of_getElem? hy)], a9⟩

/-- the spacetimes in which different points never precede each other mutually -/
def SpacetimeObj.IsSeparating : SpacetimeObj → Prop
  | .base => False
  | .flat M => M.isPeriodic = false
  | .antiDeSitter _ _ => False
  | _ => True

theorem eq_of_abs_eq {a b : ℝ} (h : |a| = |b|) (hab : 0 ≤ a * b) : a = b := by
  rcases abs_eq_abs.1 h with h | h
  · exact h
  · subst h
    have : b * b ≤ 0 := by linarith
    have : b = 0 := by nlinarith
    rw [this, neg_zero]

/-- **C98, distinct points.** In Minkowski, de Sitter and black hole spacetimes (off the horizon), two points that precede each other mutually are the same point (have the same coordinates), so
the hypothesis of `C98_embedded` about rows is that they are different. -/
theorem C98_antisymm (M : SpacetimeObj) (hM : M.Constructed) (hs : M.IsSeparating) (x y : Point) (hP : M.Region {x, y}) (h1 : M.Le x y) (h2 : M.Le y x) :
    ∀ i < M.dim, x i = y i := by
  have all : ∀ {d : ℕ}, x 0 = y 0 → (∀ i, 1 ≤ i → i < d → x i = y i) → ∀ i < d, x i = y i := fun h0 h i hi => by
    rcases Nat.eq_zero_or_pos i with rfl | hp
    · exact h0
    · exact h i hp hi
  cases M with
  | base => exact hs.elim
  | antiDeSitter d a => exact hs.elim
  | flat M =>
    have hp : ∀ i, ¬ M.periods i > 0 := fun i => by unfold FlatSpacetime.periods; simp [show M.isPeriodic = false from hs]
    have a1 : MinkLe M.dim x y := (torusLe_of_no_period (fun i _ _ => hp _) x y).1 h1
    have a2 : MinkLe M.dim y x := (torusLe_of_no_period (fun i _ _ => hp _) y x).1 h2
    exact minkLe_antisymm a1 a2 hM.dim_pos
  | deSitter d a =>
    obtain ⟨d', hd'⟩ := hM
    have ha : 2 ≤ d ∧ 0 < a := by
      unfold dSInit at hd'
      split at hd'
      · cases hd'
      · split at hd'
        · rename_i h
          have := congrArg Prod.fst (Except.ok.inj hd'); simp only at this
          exact ⟨by omega, by simpa [test] using h⟩
        · cases hd'
    obtain ⟨hx, hy, m1⟩ := h1
    obtain ⟨-, -, m2⟩ := h2
    have q := minkLe_antisymm m1 m2 (by omega)
    have q0 := q 0 (by omega)
    have hsp : ∀ i, 1 ≤ i → i < d → x i = y i := fun i hi hid => by
      have := q i (by omega)
      simpa [dSEmbed, show i ≠ 0 by omega, show i ≠ d by omega] using this
    refine all ?_ hsp
    have hr : ∑ i ∈ Finset.Ico 1 d, (x i) ^ 2 = ∑ i ∈ Finset.Ico 1 d, (y i) ^ 2 := Finset.sum_congr rfl fun i hi => by
      rw [hsp i (Finset.mem_Ico.1 hi).1 (Finset.mem_Ico.1 hi).2]
    have q0' : Real.sqrt (a ^ 2 - ∑ i ∈ Finset.Ico 1 d, (x i) ^ 2) * Real.sinh (x 0 / a) = Real.sqrt (a ^ 2 - ∑ i ∈ Finset.Ico 1 d, (y i) ^ 2) * Real.sinh (y 0 / a) := by
      simpa [dSEmbed] using q0
    rw [hr] at q0'
    have hpos : 0 < Real.sqrt (a ^ 2 - ∑ i ∈ Finset.Ico 1 d, (y i) ^ 2) := Real.sqrt_pos.2 (sub_pos.2 hy)
    have := Real.sinh_strictMono.injective (mul_left_cancel₀ hpos.ne' q0')
    exact (div_left_inj' ha.2.ne').1 this
  | blackHole r m =>
    obtain ⟨d', hd'⟩ := hM
    have hr : 0 < r := by
      unfold bhInit at hd'
      split at hd'
      · cases hd'
      · split at hd'
        · cases hd'
        · dsimp only at hd'
          split at hd'
          · rename_i h; simpa [test] using h
          · cases hd'
    have hx : |x 1| ≠ r := hP x (Set.mem_insert _ _)
    have hy : |y 1| ≠ r := hP y (Set.mem_insert_of_mem _ rfl)
    suffices hh : x 0 = y 0 ∧ |x 1| = |y 1| ∧ 0 ≤ x 1 * y 1 by
      intro i hi
      have hi' : i < 2 := hi
      rcases Nat.lt_succ_iff_lt_or_eq.1 hi' with h | rfl
      · rw [show i = 0 by omega]; exact hh.1
      · exact eq_of_abs_eq hh.2.1 hh.2.2
    cases m with
    | eddingtonFinkelstein =>
      obtain ⟨p1, p2, p3, p4⟩ := h1
      obtain ⟨q1, q2, q3, q4⟩ := h2
      have hD : y 0 - x 0 = |x 1| - |y 1| := by linarith
      have habs : |x 1| = |y 1| := by
        rcases lt_or_gt_of_ne hx with h | h <;> rcases lt_or_gt_of_ne hy with h' | h'
        · exact le_antisymm (q3 h').1 (p3 h).1
        · exact absurd (lt_of_le_of_lt (p3 h).1 h) (not_lt.2 h'.le)
        · exact absurd (lt_of_le_of_lt (q3 h').1 h') (not_lt.2 h.le)
        · have e1 := p4 h h'
          have e2 := q4 h' h
          rcases lt_trichotomy |x 1| |y 1| with g | g | g
          · have := rayTime_strictMono (k := 2) (by norm_num) hr h g; linarith
          · exact g
          · have := rayTime_strictMono (k := 2) (by norm_num) hr h' g; linarith
      exact ⟨by linarith, habs, p1⟩
    | schwarzschild =>
      obtain ⟨p1, p2, p3, p4⟩ := h1
      obtain ⟨q1, q2, q3, q4⟩ := h2
      rcases lt_or_gt_of_ne hx with h | h <;> rcases lt_or_gt_of_ne hy with h' | h'
      · have habs : |x 1| = |y 1| := le_antisymm (q2 h').1 (p2 h).1
        have := (p2 h).2
        rw [habs, sub_self] at this
        have := abs_eq_zero.1 (le_antisymm this (abs_nonneg _))
        exact ⟨by linarith, habs, p1⟩
      · exact absurd (lt_of_le_of_lt (p2 h).1 h) (not_lt.2 h'.le)
      · exact absurd (lt_of_le_of_lt (q2 h').1 h') (not_lt.2 h.le)
      · have e1 := p4 h h'
        have e2 := q4 h' h
        have n1 := abs_nonneg (rayTime 1 r |y 1| - rayTime 1 r |x 1|)
        have n2 := abs_nonneg (rayTime 1 r |x 1| - rayTime 1 r |y 1|)
        have h0 : x 0 = y 0 := by linarith
        have hz : rayTime 1 r |y 1| - rayTime 1 r |x 1| = 0 := abs_eq_zero.1 (by linarith)
        refine ⟨h0, ?_, p1⟩
        rcases lt_trichotomy |x 1| |y 1| with g | g | g
        · have := rayTime_strictMono (k := 1) (by norm_num) hr h g; linarith
        · exact g
        · have := rayTime_strictMono (k := 1) (by norm_num) hr h' g; linarith

/-- hypotheses satisfiable: three points in 2-dimensional de Sitter spacetime, `(0, 0)`, `(1, 0)` and `(0, 1/2)` -/
example : ∃ S, Compatible (.name "dS") .none (.rows [[0, 0], [1, 0], [0, 1 / 2]]) (-1) 2 (.deSitter 2 1) S ∧ (SpacetimeObj.deSitter 2 1).Constructed ∧
    ¬ NoDimension (.name "dS") .none (.rows [[0, 0], [1, 0], [0, 1 / 2]]) (-1) ∧
    (SpacetimeObj.deSitter 2 1).Region {x | x ∈ (CoordsArg.rows [[0, 0], [1, 0], [0, 1 / 2]]).points} := by
  obtain ⟨S, hS, -⟩ := (shapeInit_name 2 "cylinder").1 ⟨by norm_num, by decide⟩
  refine ⟨S, ⟨fun h => absurd h.2.2.2 (by simp), Or.inl (by norm_num), Or.inr (Or.inl ⟨by decide, by norm_num, rfl⟩), hS, by simp [CoordsArg.HasDim]⟩, ⟨2, by simp [dSInit, test]⟩, ?_, trivial⟩
  simp [NoDimension]

/-! ## C99 -/

/-- **C99.** `Dim`, `Name` and `MetricName` of the spacetimes that the constructors return; the name and the dimension of a spacetime determine its class: constructing by `Name` gives a
spacetime of the same class, dimension and name. -/
theorem C99_names (dim : ℤ) :
    (∀ s M, spacetimeByName s dim = .ok M → (M.dim : ℤ) = dim ∧ spacetimeByName M.name dim = .ok M ∧
      (M.name = s ∨ (s, M.name) ∈ [("Minkowski", "flat"), ("dS", "de Sitter"), ("AdS", "Anti-de Sitter"), ("Schwarzschild", "black hole")])) ∧
    (∀ p M, FlatSpacetime.init dim p = .ok M → (SpacetimeObj.flat M).name = "flat" ∧ (SpacetimeObj.flat M).metricName = "Minkowski" ∧ ((SpacetimeObj.flat M).dim : ℤ) = dim) ∧
    (∀ a d a', dSInit dim a = .ok (d, a') → (SpacetimeObj.deSitter d a').name = "de Sitter" ∧ (SpacetimeObj.antiDeSitter d a').name = "Anti-de Sitter" ∧
      (SpacetimeObj.deSitter d a').metricName = "static" ∧ (SpacetimeObj.antiDeSitter d a').metricName = "static" ∧ ((SpacetimeObj.deSitter d a').dim : ℤ) = dim ∧
      ((SpacetimeObj.antiDeSitter d a').dim : ℤ) = dim) ∧
    (∀ r m r' m', bhInit dim r m = .ok (r', m') → (SpacetimeObj.blackHole r' m').name = "black hole" ∧ ((SpacetimeObj.blackHole r' m').dim : ℤ) = dim ∧
      (SpacetimeObj.blackHole r' m').metricName = match m with | some .schwarzschild => "Schwarzschild" | _ => "Eddington-Finkelstein") ∧
    SpacetimeObj.base.dim = 2 ∧ SpacetimeObj.base.name = "" ∧ SpacetimeObj.base.metricName = "unknown" := by
  have flat : ∀ p M, FlatSpacetime.init dim p = .ok M → (M.dim : ℤ) = dim := fun p M h => by
    unfold FlatSpacetime.init at h
    split at h
    · cases h
    · rename_i hd
      have : M.dim = dim.toNat := by
        split at h
        · split at h <;> (cases h; rfl)
        · split at h
          · split at h <;> (cases h; rfl)
          · cases h
        · cases h
      omega
  have ds : ∀ a d a', dSInit dim a = .ok (d, a') → (d : ℤ) = dim := fun a d a' h => by
    unfold dSInit at h
    split at h
    · cases h
    · split at h
      · have := congrArg Prod.fst (Except.ok.inj h); simp only at this; omega
      · cases h
  have bh : ∀ r m r' m', bhInit dim r m = .ok (r', m') → dim = 2 ∧ m = some m' := fun r m r' m' h => by
    unfold bhInit at h
    split at h
    · cases h
    · split at h
      · cases h
      · split at h
        · cases h
        · split at h
          · have := congrArg Prod.snd (Except.ok.inj h)
            exact ⟨by omega, congrArg some this⟩
          · cases h
  refine ⟨fun s M h => ?_, fun p M h => ⟨rfl, rfl, flat p M h⟩, fun a d a' h => ⟨rfl, rfl, rfl, rfl, ds a d a' h, ds a d a' h⟩, fun r m r' m' h => ⟨rfl, ?_, ?_⟩, rfl, rfl, rfl⟩
  · unfold spacetimeByName at h
    split at h
    · rename_i hs
      cases h1 : FlatSpacetime.init dim (.float 0) with
      | error x => rw [h1] at h; cases h
      | ok N =>
        rw [h1] at h
        cases h
        refine ⟨flat _ N h1, by simp [spacetimeByName, SpacetimeObj.name, h1, Except.map], ?_⟩
        rcases hs with rfl | rfl <;> simp [SpacetimeObj.name]
    · split at h
      · rename_i hs
        cases h1 : dSInit dim 1 with
        | error x => rw [h1] at h; cases h
        | ok N =>
          rw [h1] at h
          cases h
          refine ⟨ds 1 N.1 N.2 h1, by simp [spacetimeByName, SpacetimeObj.name, h1, Except.map], ?_⟩
          rcases hs with rfl | rfl <;> simp [SpacetimeObj.name]
      · split at h
        · rename_i hs
          cases h1 : dSInit dim 0.5 with
          | error x => rw [h1] at h; cases h
          | ok N =>
            rw [h1] at h
            cases h
            refine ⟨ds 0.5 N.1 N.2 h1, by simp [spacetimeByName, SpacetimeObj.name, h1, Except.map], ?_⟩
            rcases hs with rfl | rfl <;> simp [SpacetimeObj.name]
        · split at h
          · rename_i hs
            cases h1 : bhInit dim 0.5 (some .eddingtonFinkelstein) with
            | error x => rw [h1] at h; cases h
            | ok N =>
              rw [h1] at h
              cases h
              refine ⟨by simp only [SpacetimeObj.dim]; have := (bh _ _ N.1 N.2 h1).1; omega, by simp [spacetimeByName, SpacetimeObj.name, h1, Except.map], ?_⟩
              rcases hs with rfl | rfl <;> simp [SpacetimeObj.name]
          · cases h
  · have := (bh r m r' m' h).1
    simp only [SpacetimeObj.dim]; omega
  · obtain ⟨-, rfl⟩ := bh r m r' m' h
    cases m' <;> rfl

/-- **C99, refuted for metrics.** 'Minkowski' and 'Schwarzschild' are supported names of spacetimes and also names of metrics.  The spacetime with the name 'Minkowski' has that metric, but the
one with the name 'Schwarzschild' has the Eddington-Finkelstein metric, whose causal order is another one: inside the black hole, `(0, 1/4)` precedes `(0, 1/8)` in the Schwarzschild metric, but
not in the spacetime that is constructed. -/
theorem C99_metric_refuted : (∀ M, spacetimeByName "Minkowski" 2 = .ok M → M.metricName = "Minkowski") ∧
    ∃ M, spacetimeByName "Schwarzschild" 2 = .ok M ∧ M.metricName ≠ "Schwarzschild" ∧
    SpacetimeObj.Le (.blackHole 0.5 .schwarzschild) (fun i => if i = 1 then 1 / 4 else 0) (fun i => if i = 1 then 1 / 8 else 0) ∧
    ¬ M.Le (fun i => if i = 1 then 1 / 4 else 0) (fun i => if i = 1 then 1 / 8 else 0) := by
  refine ⟨fun M h => ?_, .blackHole 0.5 .eddingtonFinkelstein, ?_, by decide, ?_, ?_⟩
  · have : spacetimeByName "Minkowski" 2 = .ok (.flat ⟨2, false, none⟩) := by simp [spacetimeByName, flatInit_zero, Except.map]
    rw [this] at h
    cases h
    rfl
  · simp [spacetimeByName, bhInit_default, Except.map]
  · have a : |(1 / 4 : ℝ)| = 1 / 4 := abs_of_pos (by norm_num)
    have b : |(1 / 8 : ℝ)| = 1 / 8 := abs_of_pos (by norm_num)
    have h := (rayTime_inside (rS := 0.5) (r := 1 / 8) (r0 := 1 / 4) (by norm_num) (by norm_num) (by norm_num) (by norm_num)).2
    simp only [SpacetimeObj.Le, SchwarzschildLe, if_true, a, b, zero_ne_one, if_false, sub_self, abs_zero]
    exact ⟨by norm_num, fun _ => ⟨by norm_num, h⟩, fun h1 => absurd h1 (by norm_num), fun h1 => absurd h1 (by norm_num)⟩
  · have a : |(1 / 4 : ℝ)| = 1 / 4 := abs_of_pos (by norm_num)
    have b : |(1 / 8 : ℝ)| = 1 / 8 := abs_of_pos (by norm_num)
    simp only [SpacetimeObj.Le, EFLe, if_true, a, b, zero_ne_one, if_false, sub_self]
    rintro ⟨-, h, -⟩
    norm_num at h

end Causets
