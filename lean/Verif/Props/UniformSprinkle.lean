import Verif.Props.Uniform
import Verif.Props.SprinkleOrder
import Mathlib.MeasureTheory.Constructions.Pi
import Mathlib.MeasureTheory.Function.Floor
import Mathlib.Probability.Independence.InfinitePi

/-! # C101 — the events of a sprinkle are independent and uniformly distributed in the shape -/

namespace Causets
open CoordinateShape MeasureTheory ProbabilityTheory Set

variable {Ω : Type*} [MeasurableSpace Ω] {P : Measure Ω}

/-- **Specification.** `X 0, X 1, ...` are independent random points, each uniformly distributed (with respect to the Lebesgue measure of the coordinates) in the region of the shape. -/
structure UniformPoints (P : Measure Ω) (S : CoordinateShape) (X : ℕ → Ω → Fin S.dim → ℝ) : Prop where
  meas : ∀ i, Measurable (X i)
  law : ∀ i, pdf.IsUniform (X i) {x | toPoint x ∈ S.region} P
  indep : iIndepFun X P

theorem coords_points (R : RandomDraws P) (junk : ℕ → Point) (S : CoordinateShape) (hS : S.WellFormed) (hb : S.name ≠ "bicone") (hcyl : S.name = "cylinder" → 2 ≤ S.dim) :
    ∃ X : ℕ → Ω → Fin S.dim → ℝ, UniformPoints P S X ∧
      (∀ (ω : Ω) (n : ℕ), sprinkleCoords (R.draws ω) junk S.dim n S = .ok ((List.range n).map fun i => toPoint (X i ω))) ∧
      ∃ F : ℕ → (List ℕ ⊕ List ℕ → ℝ) → Fin S.dim → ℝ, (∀ i, Measurable (F i)) ∧ ∀ i ω, X i ω = F i (fun k => Sum.elim R.unif R.normal k ω) := by
  obtain ⟨row, h⟩ := rowLaw R junk S hS hb hcyl
  refine ⟨fun i ω j => row (R.draws ω) i j, ⟨h.meas, h.law, h.indep⟩, fun ω n => ?_, ?_⟩
  · rw [h.coords]
    congr 2
    funext i j
    unfold toPoint
    split
    · rfl
    · exact h.rest _ _ _ (by omega)
  · obtain ⟨F, h1, h2⟩ := h.dep
    exact ⟨F, h1, fun i ω => funext fun j => h2 i ω j⟩

/-- **C101, coordinates (partial).** Into a cube, cuboid, ball or cylinder (hollow or not, any centre, any dimension; a cylinder of dimension 2 or more): the rows of the coordinate matrix are independent
and uniformly distributed in the shape, for every number of rows.  Not proved, because false: the same for a bicone, see `C101_bicone_refuted`. -/
theorem C101_coords_partial (R : RandomDraws P) (junk : ℕ → Point) (S : CoordinateShape) (hS : S.WellFormed) (hb : S.name ≠ "bicone") (hcyl : S.name = "cylinder" → 2 ≤ S.dim) :
    ∃ X : ℕ → Ω → Fin S.dim → ℝ, UniformPoints P S X ∧
      ∀ (ω : Ω) (n : ℕ), sprinkleCoords (R.draws ω) junk S.dim n S = .ok ((List.range n).map fun i => toPoint (X i ω)) := by
  obtain ⟨X, h1, h2, -⟩ := coords_points R junk S hS hb hcyl
  exact ⟨X, h1, h2⟩

/-- **C101, probability zero.** With probability one no normal vector drawn vanishes: the code does not divide by zero, and the hypotheses of C48, C72, ... hold. -/
theorem C101_almost_surely (R : RandomDraws P) : ∀ᵐ ω ∂P, ∀ i bd, 0 < bd → normalNorm (R.draws ω) bd i ≠ 0 := by
  have h : ∀ᵐ ω ∂P, ∀ i : ℕ, R.normal [113, i, 0] ω ≠ 0 := by
    rw [ae_all_iff]
    intro i
    rw [ae_iff]
    have : {ω | ¬ R.normal [113, i, 0] ω ≠ 0} = R.normal [113, i, 0] ⁻¹' {0} := by ext; simp
    rw [this, ← Measure.map_apply (R.normal_meas _) (measurableSet_singleton _), R.normal_law]
    haveI := noAtoms_gaussianReal (μ := 0) (v := 1) one_ne_zero
    exact measure_singleton _
  filter_upwards [h] with ω hω i bd hbd hz
  apply hω i
  unfold normalNorm at hz
  rw [Real.sqrt_eq_zero (Finset.sum_nonneg fun _ _ => sq_nonneg _), Finset.sum_eq_zero_iff_of_nonneg fun _ _ => sq_nonneg _] at hz
  exact pow_eq_zero_iff (two_ne_zero) |>.1 (hz 0 (Finset.mem_range.2 hbd))

/-- **C101, probability.** The probability of a point in `B` is the fraction of the volume (the number `Volume` of the shape) of the region in `B`. -/
theorem C101_probability (S : CoordinateShape) (hS : S.WellFormed) (hcyl : S.name = "cylinder" → 2 ≤ S.dim) (X : ℕ → Ω → Fin S.dim → ℝ) (hX : UniformPoints P S X) (i : ℕ)
    (B : Set (Fin S.dim → ℝ)) (hB : MeasurableSet B) :
    P {ω | X i ω ∈ B} = volume (B ∩ {x | toPoint x ∈ S.region}) / ENNReal.ofReal S.volume ∧ 0 < S.volume := by
  obtain ⟨h1, -, h3⟩ := C53_volume S hS
  have hpos : 0 < S.volume := h3 (by rintro ⟨a, b, -⟩; have := hcyl a; omega)
  refine ⟨?_, hpos⟩
  have := (hX.law i).measure_preimage (by rw [h1]; simpa using hpos) (by rw [h1]; exact ENNReal.ofReal_ne_top) hB
  rw [h1, inter_comm] at this
  exact this

/-- with probability one all points lie in the region -/
theorem UniformPoints.inside {S : CoordinateShape} {X : ℕ → Ω → Fin S.dim → ℝ} (hX : UniformPoints P S X) (hm : MeasurableSet {x : Fin S.dim → ℝ | toPoint x ∈ S.region}) :
    ∀ᵐ ω ∂P, ∀ i, toPoint (X i ω) ∈ S.region := by
  rw [ae_all_iff]
  intro i
  have : ∀ᵐ x ∂(P.map (X i)), x ∈ {x : Fin S.dim → ℝ | toPoint x ∈ S.region} := by
    rw [(hX.law i : P.map (X i) = _)]
    exact ae_cond_mem hm
  exact ae_of_ae_map (hX.meas i).aemeasurable this

/-- **C101, general position.** With probability one no two of the points have a common coordinate; in particular their times differ. -/
theorem C101_distinct (S : CoordinateShape) (X : ℕ → Ω → Fin S.dim → ℝ) (hX : UniformPoints P S X) :
    ∀ᵐ ω ∂P, ∀ i j, i ≠ j → ∀ k, X i ω k ≠ X j ω k := by
  haveI := hX.indep.isProbabilityMeasure
  simp only [ae_all_iff]
  intro i j hij k
  have hmap : P.map (fun ω => (X i ω, X j ω)) = (P.map (X i)).prod (P.map (X j)) :=
    (indepFun_iff_map_prod_eq_prod_map_map (hX.meas i).aemeasurable (hX.meas j).aemeasurable).1 (hX.indep.indepFun hij)
  haveI : IsProbabilityMeasure (P.map (X j)) := Measure.isProbabilityMeasure_map (hX.meas j).aemeasurable
  haveI : IsProbabilityMeasure (P.map (X i)) := Measure.isProbabilityMeasure_map (hX.meas i).aemeasurable
  have hs : MeasurableSet {p : (Fin S.dim → ℝ) × (Fin S.dim → ℝ) | p.1 k = p.2 k} := measurableSet_eq_fun (by fun_prop) (by fun_prop)
  have h0 : ∀ᵐ p ∂(P.map (fun ω => (X i ω, X j ω))), p.1 k ≠ p.2 k := by
    rw [ae_iff]
    simp only [ne_eq, not_not]
    rw [hmap, Measure.measure_prod_null hs]
    refine Filter.Eventually.of_forall fun x => ?_
    refine (hX.law j).absolutelyContinuous ?_
    have : (Prod.mk x ⁻¹' {p : (Fin S.dim → ℝ) × (Fin S.dim → ℝ) | p.1 k = p.2 k}) = {y | y k = x k} := by ext y; simp [eq_comm]
    rw [this]
    exact Measure.pi_hyperplane (fun _ : Fin S.dim => (volume : Measure ℝ)) k (x k)
  exact ae_of_ae_map ((hX.meas i).prodMk (hX.meas j)).aemeasurable h0

/-- the events created by `superCreate` from the points -/
theorem superCreate_points (c : Point → Point → Bool × Bool) (it : Iter) (reg : Set Point) (hc : IsCausalOrder c reg) (s : SprState) (g : SprGood reg s) (rows : List Point)
    (hrows : ∀ x ∈ rows, x ∈ reg) :
    ∃ (ids : List EId) (s' : SprState), s.superCreate c it rows none true = (.ok ids.toFinset, s') ∧ SprGood reg s' ∧ ids.length = rows.length ∧ ids.Nodup ∧
      (∀ e ∈ ids, ¬ s.world.heap.Exists e) ∧ s'.events = s.events ∪ ids.toFinset ∧ s'.intensity = s.intensity ∧
      (∀ (i : ℕ) (e : EId), ids[i]? = some e → s'.world.crd e = rows[i]?) ∧ (∀ e, s.world.heap.Exists e → s'.world.crd e = s.world.crd e) ∧ SprOrdered c s' := by
  obtain ⟨es, s', h1, h2, h3, h4, h5, h6, h7, h8, h9⟩ := superCreate_good c it reg hc s g rows none hrows
  have hemb : ∀ e ∈ s.events, (s.world.crd e).isSome := fun e he => by
    obtain ⟨x, -, hx⟩ := g.inside e he
    rw [hx]; rfl
  obtain ⟨ids, k1, k2, k3, k4, k5, k6, k7⟩ := C46_create c it s.events rows none true s.world g.exist hemb
  have hw : s'.world = (create c it s.events rows none true s.world).2.2.2 := by
    have := congrArg (fun r => r.2.world) h1
    rw [← this]
    unfold SprState.superCreate
    dsimp only
    split <;> rfl
  have hes : es = ids.toFinset := by
    have := congrArg Prod.fst h1
    unfold SprState.superCreate at this
    dsimp only at this
    split at this
    · simp at this
    · rw [← k3]; simpa using this.symm
  refine ⟨ids, s', by rw [h1, hes], h2, k1, k2, fun e he => (k5 e he).1, by rw [h5, hes], h6, fun i e hi => ?_, fun e he => (h9 e he).1, h8⟩
  rw [hw]
  exact (k6 i e hi).2

theorem sprinkle_events (c : Point → Point → Bool × Bool) (it : Iter) (R : RandomDraws P) (junk : ℕ → Point) (S : CoordinateShape) (hS : S.WellFormed) (hb : S.name ≠ "bicone")
    (hc : IsCausalOrder c S.region) (X : ℕ → Ω → Fin S.dim → ℝ)
    (hrows : ∀ (ω : Ω) (n : ℕ), sprinkleCoords (R.draws ω) junk S.dim n S = .ok ((List.range n).map fun i => toPoint (X i ω))) :
    ∀ᵐ ω ∂P, ∀ (s : SprState), SprGood S.region s →
      (∀ n : ℕ, ∃ (ids : List EId) (s' : SprState), s.sprinkle c it (R.draws ω) junk S.dim S n = (.ok ids.toFinset, s') ∧ SprGood S.region s' ∧ ids.length = n ∧ ids.Nodup ∧
        (∀ e ∈ ids, ¬ s.world.heap.Exists e) ∧ s'.events = s.events ∪ ids.toFinset ∧ s'.intensity = s.intensity + n ∧
        (∀ (i : ℕ) (e : EId), ids[i]? = some e → s'.world.crd e = some (toPoint (X i ω))) ∧ ∀ e, s.world.heap.Exists e → s'.world.crd e = s.world.crd e) ∧
      (∀ (lam : ℝ) (k : ℕ), 0 ≤ lam → ∃ (ids : List EId) (s' : SprState), s.intensify c it (R.draws ω) junk S.dim S lam k = (.ok ids.toFinset, s') ∧ SprGood S.region s' ∧
        ids.length = k ∧ ids.Nodup ∧ (∀ e ∈ ids, ¬ s.world.heap.Exists e) ∧ s'.events = s.events ∪ ids.toFinset ∧ s'.intensity = s.intensity + lam ∧
        (∀ (i : ℕ) (e : EId), ids[i]? = some e → s'.world.crd e = some (toPoint (X i ω))) ∧ ∀ e, s.world.heap.Exists e → s'.world.crd e = s.world.crd e) := by
  filter_upwards [C101_almost_surely R] with ω hω s g
  have hin : ∀ (n : ℕ), ∀ x ∈ (List.range n).map (fun i => toPoint (X i ω)), x ∈ S.region := fun n =>
    sprinkleCoords_reg (R.draws ω) junk S hS hb n hω _ (hrows ω n)
  have hcrd : ∀ (n i : ℕ) (e : EId) (ids : List EId) (o : Option Point), ids.length = n → ids[i]? = some e → o = ((List.range n).map (fun i => toPoint (X i ω)))[i]? →
      o = some (toPoint (X i ω)) := by
    rintro n i e ids o hl hi rfl
    have : i < n := hl ▸ (List.getElem?_eq_some_iff.1 hi).1
    simp [this]
  constructor
  · intro n
    obtain ⟨ids, s', h1, h2, h3, h4, h5, h6, h7, h8, h9, -⟩ := superCreate_points c it S.region hc { s with intensity := s.intensity + n } ⟨g.valid, g.links, g.exist, g.closed, g.inside⟩ _ (hin n)
    rw [List.length_map, List.length_range] at h3
    refine ⟨ids, s', ?_, h2, h3, h4, h5, h6, h7, fun i e hi => hcrd n i e ids _ h3 hi (h8 i e hi), h9⟩
    unfold SprState.sprinkle
    rw [if_neg (by omega), hrows]
    exact h1
  · intro lam k hl
    obtain ⟨ids, s', h1, h2, h3, h4, h5, h6, h7, h8, h9, -⟩ := superCreate_points c it S.region hc { s with intensity := s.intensity + lam } ⟨g.valid, g.links, g.exist, g.closed, g.inside⟩ _ (hin k)
    rw [List.length_map, List.length_range] at h3
    refine ⟨ids, s', ?_, h2, h3, h4, h5, h6, h7, fun i e hi => hcrd k i e ids _ h3 hi (h8 i e hi), h9⟩
    unfold SprState.intensify
    have : test (lam < 0) = false := by simpa [test] using hl
    rw [this, if_neg (by simp), hrows]
    exact h1

/-- **C101 (partial).** `sprinkle(n)` into such a shape, in a spacetime whose causality is a causal order on it: there are independent random points, uniformly distributed in the shape, such that with probability one, on
every causet in good order and for every `n`: the call succeeds, and the events it adds are `n` new events, the `i`-th having the `i`-th point as coordinates. -/
theorem C101_sprinkle_partial (c : Point → Point → Bool × Bool) (it : Iter) (R : RandomDraws P) (junk : ℕ → Point) (S : CoordinateShape) (hS : S.WellFormed) (hb : S.name ≠ "bicone")
    (hcyl : S.name = "cylinder" → 2 ≤ S.dim) (hc : IsCausalOrder c S.region) :
    ∃ X : ℕ → Ω → Fin S.dim → ℝ, UniformPoints P S X ∧ ∀ᵐ ω ∂P, ∀ (s : SprState), SprGood S.region s →
      (∀ n : ℕ, ∃ (ids : List EId) (s' : SprState), s.sprinkle c it (R.draws ω) junk S.dim S n = (.ok ids.toFinset, s') ∧ SprGood S.region s' ∧ ids.length = n ∧ ids.Nodup ∧
        (∀ e ∈ ids, ¬ s.world.heap.Exists e) ∧ s'.events = s.events ∪ ids.toFinset ∧ s'.intensity = s.intensity + n ∧
        (∀ (i : ℕ) (e : EId), ids[i]? = some e → s'.world.crd e = some (toPoint (X i ω))) ∧ ∀ e, s.world.heap.Exists e → s'.world.crd e = s.world.crd e) ∧
      (∀ (lam : ℝ) (k : ℕ), 0 ≤ lam → ∃ (ids : List EId) (s' : SprState), s.intensify c it (R.draws ω) junk S.dim S lam k = (.ok ids.toFinset, s') ∧ SprGood S.region s' ∧
        ids.length = k ∧ ids.Nodup ∧ (∀ e ∈ ids, ¬ s.world.heap.Exists e) ∧ s'.events = s.events ∪ ids.toFinset ∧ s'.intensity = s.intensity + lam ∧
        (∀ (i : ℕ) (e : EId), ids[i]? = some e → s'.world.crd e = some (toPoint (X i ω))) ∧ ∀ e, s.world.heap.Exists e → s'.world.crd e = s.world.crd e) := by
  obtain ⟨X, hX, hrows⟩ := C101_coords_partial R junk S hS hb hcyl
  exact ⟨X, hX, sprinkle_events c it R junk S hS hb hc X hrows⟩

/-- **C101, order (partial).** A new `SprinkledCauset(card=n)` in a spacetime whose causality never points back in time: with probability one its order is exactly the causality of the coordinates (no proviso
on events that precede each other mutually). -/
theorem C101_order_partial (c : Point → Point → Bool × Bool) (it : Iter) (R : RandomDraws P) (junk : ℕ → Point) (S : CoordinateShape) (hS : S.WellFormed) (hb : S.name ≠ "bicone")
    (hcyl : S.name = "cylinder" → 2 ≤ S.dim) (hc : IsCausalOrder c S.region) (htime : ∀ x y, (c x y).1 = true → x 0 ≤ y 0) :
    ∀ᵐ ω ∂P, ∀ (n : ℕ) (lam : ℝ) (k : ℕ) (w : World Point), 0 < n → w.heap.Valid → w.heap.LinksExact →
      ∃ s', SprState.init c it (R.draws ω) junk S.dim S n lam k w = (.ok s'.events, s') ∧ s'.events.card = n ∧
        ∀ a ∈ s'.events, ∀ b ∈ s'.events, ∃ x ∈ S.region, ∃ y ∈ S.region, s'.world.crd a = some x ∧ s'.world.crd b = some y ∧
          (s'.world.heap.Lt a b ↔ a ≠ b ∧ (c x y).1 = true) := by
  obtain ⟨X, hX, hrows⟩ := C101_coords_partial R junk S hS hb hcyl
  filter_upwards [C101_almost_surely R, C101_distinct S X hX] with ω hω hdist n lam k w hn v lx
  have hin : ∀ x ∈ (List.range n).map (fun i => toPoint (X i ω)), x ∈ S.region :=
    sprinkleCoords_reg (R.draws ω) junk S hS hb n hω _ (hrows ω n)
  have g0 : SprGood S.region { events := ∅, intensity := (0 : ℝ) + n, world := w } := ⟨v, lx, by simp, by intro x hx; simp at hx, by simp⟩
  obtain ⟨ids, s', h1, h2, h3, h4, h5, h6, h7, h8, h9, h10⟩ := superCreate_points c it S.region hc _ g0 _ hin
  rw [List.length_map, List.length_range] at h3
  simp only [Finset.empty_union] at h6
  have hid : ∀ a ∈ s'.events, ∃ i : ℕ, ids[i]? = some a ∧ s'.world.crd a = some (toPoint (X i ω)) := by
    intro a ha
    rw [h6, List.mem_toFinset] at ha
    obtain ⟨i, hi, rfl⟩ := List.mem_iff_getElem.1 ha
    refine ⟨i, List.getElem?_eq_getElem hi, ?_⟩
    rw [h8 i _ (List.getElem?_eq_getElem hi)]
    simp [h3 ▸ hi]
  refine ⟨s', ?_, ?_, ?_⟩
  · unfold SprState.init
    rw [if_pos (by exact_mod_cast hn)]
    unfold SprState.sprinkle
    rw [if_neg (by omega), hrows]
    dsimp only
    rw [h6]
    exact h1
  · rw [h6, List.toFinset_card_of_nodup h4, h3]
  · intro a ha b hb'
    obtain ⟨x, hx, ex⟩ := h2.inside a ha
    obtain ⟨y, hy, ey⟩ := h2.inside b hb'
    refine ⟨x, hx, y, hy, ex, ey, h10 ?_ a ha b hb' x y ex ey⟩
    intro a ha b hb' x y ex ey hab hcc
    obtain ⟨i, hi, ei⟩ := hid a ha
    obtain ⟨j, hj, ej⟩ := hid b hb'
    rw [ei] at ex; rw [ej] at ey
    injection ex with ex; injection ey with ey
    have hij : i ≠ j := by
      rintro rfl
      rw [hi] at hj
      injection hj with hj
      exact hab hj
    have hd := hS.1
    have := hdist i j hij ⟨0, by omega⟩
    apply this
    have e0 : x 0 = y 0 := le_antisymm (htime _ _ hcc.1) (htime _ _ hcc.2)
    rw [← ex, ← ey] at e0
    have t0 : ∀ z : Fin S.dim → ℝ, toPoint z 0 = z ⟨0, by omega⟩ := fun z => toPoint_fin z ⟨0, by omega⟩
    rwa [t0, t0] at e0

/-- **C101, refuted.** For the default shape of flat spacetime the statement is false: whatever the random numbers, there is a content of the allocated memory for which no row is uniformly distributed in the shape. -/
theorem C101_bicone_refuted (R : RandomDraws P) : ∃ S, CoordinateShape.init 2 "diamond" {} = .ok S ∧ S.WellFormed ∧ ∃ junk : ℕ → Point,
    ¬ ∃ X : ℕ → Ω → Fin S.dim → ℝ, UniformPoints P S X ∧
      ∀ (ω : Ω) (n : ℕ), sprinkleCoords (R.draws ω) junk S.dim n S = .ok ((List.range n).map fun i => toPoint (X i ω)) := by
  obtain ⟨S, hS, hw, -⟩ := C48_bicone_refuted
  have hn : S.name = "bicone" := by
    obtain ⟨S', hS', -, -, hname, -⟩ := (C52_init 2 "diamond" {}).1 (by refine ⟨by norm_num, by simp, ?_, ?_, ?_, ?_, ?_⟩ <;> simp)
    rw [hS] at hS'
    injection hS' with hS'
    rw [hS', hname]; simp
  refine ⟨S, hS, hw, fun _ j => 5, ?_⟩
  rintro ⟨X, hX, h⟩
  haveI := hX.indep.isProbabilityMeasure
  have h5 : ∀ ω i (k : Fin S.dim), X i ω k = 5 := by
    intro ω i k
    have := h ω (i + 1)
    rw [C48_bicone_uninitialised _ _ S hn] at this
    injection this with this
    have h2 := congrArg (fun l => l[i]?) this
    simp only [List.getElem?_map, List.getElem?_range (Nat.lt_succ_self i), Option.map_some, Option.some.injEq] at h2
    have h3 := congrFun h2 k
    rw [toPoint_fin] at h3
    exact h3.symm
  have hd : 0 < S.dim := hw.1
  have h1 := C101_distinct S X hX
  have h2 : ∀ᵐ ω ∂P, False := by
    filter_upwards [h1] with ω hω
    exact hω 0 1 (by norm_num) ⟨0, hd⟩ (by rw [h5, h5])
  have : P = 0 := by simpa using h2
  exact IsProbabilityMeasure.ne_zero P this

/-! ## The hypotheses can be met -/

/-- the distribution of one draw -/
noncomputable def drawLaw : List ℕ ⊕ List ℕ → Measure ℝ
  | .inl _ => volume.restrict (Ico 0 1)
  | .inr _ => gaussianReal 0 1

instance (k : List ℕ ⊕ List ℕ) : IsProbabilityMeasure (drawLaw k) := by
  rcases k with k | k
  · exact ⟨by simp [drawLaw]⟩
  · unfold drawLaw; infer_instance

theorem map_fract_uniform : (volume.restrict (Ico (0 : ℝ) 1)).map Int.fract = volume.restrict (Ico 0 1) := by
  have : (Int.fract : ℝ → ℝ) =ᵐ[volume.restrict (Ico (0 : ℝ) 1)] id := by
    filter_upwards [ae_restrict_mem measurableSet_Ico] with x hx
    exact Int.fract_eq_self.2 ⟨hx.1, hx.2⟩
  rw [Measure.map_congr this, Measure.map_id]

/-- independent draws exist -/
noncomputable def someDraws : RandomDraws (Measure.infinitePi drawLaw) where
  unif k ω := Int.fract (ω (.inl k))
  normal k ω := ω (.inr k)
  unif_meas k := measurable_fract.comp (measurable_pi_apply _)
  normal_meas k := measurable_pi_apply _
  unif_mem k ω := ⟨Int.fract_nonneg _, Int.fract_lt_one _⟩
  unif_law k := by
    have h := Measure.infinitePi_map_eval drawLaw (.inl k)
    refine (Measure.map_map measurable_fract (measurable_pi_apply (Sum.inl k))).symm.trans ?_
    refine (congrArg (Measure.map Int.fract) h).trans map_fract_uniform
  normal_law k := Measure.infinitePi_map_eval drawLaw (.inr k)
  indep := by
    have h := iIndepFun_infinitePi (P := drawLaw) (X := fun k => (match k with | .inl _ => Int.fract | .inr _ => id : ℝ → ℝ))
      (fun k => by rcases k with k | k; exact measurable_fract; exact measurable_id)
    convert h using 2 with k
    rcases k with k | k <;> rfl

/-- The hypotheses of the theorems hold: a hollow cylinder of dimension 3 in Minkowski spacetime. -/
example : ∃ (R : RandomDraws (Measure.infinitePi drawLaw)) (S : CoordinateShape), S.WellFormed ∧ S.name ≠ "bicone" ∧ (S.name = "cylinder" → 2 ≤ S.dim) ∧
    IsCausalOrder ((⟨3, false, none⟩ : FlatSpacetime).causality 0) S.region ∧
    (∀ x y, ((⟨3, false, none⟩ : FlatSpacetime).causality 0 x y).1 = true → x 0 ≤ y 0) ∧ ∃ X, UniformPoints (Measure.infinitePi drawLaw) S X := by
  set S : CoordinateShape := { dim := 3, name := "cylinder", center := [0, 1, 0], radius := some 1, hollow := some (1/2), duration := some 2 } with hSd
  have hS : S.WellFormed := ⟨by norm_num [hSd], rfl, Or.inr (Or.inr (Or.inl ⟨1, 1/2, 2, by norm_num, by norm_num, by norm_num, by norm_num, rfl⟩))⟩
  obtain ⟨X, hX, -⟩ := C101_coords_partial someDraws (fun _ _ => 0) S hS (by simp [hSd]) (by simp [hSd])
  refine ⟨someDraws, S, hS, by simp [hSd], by simp [hSd], C43_causal_order _ (by norm_num) _ ?_, fun x y h => (C43_directions 0 _ x y).2.2.1 h, X, hX⟩
  intro x _ y _ i _ _ h3
  simp [FlatSpacetime.periods] at h3

end Causets
