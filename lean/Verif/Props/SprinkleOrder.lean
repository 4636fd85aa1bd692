import Verif.Props.Intensity
import Verif.Props.CreateOrder
import Verif.Props.Curved

/-! # C72 — sprinkling end to end: the constructor and `sprinkle` give a consistent causet in the shape, ordered by the causality of the spacetime -/

namespace Causets
open Heap CoordinateShape

variable (c : Point → Point → Bool × Bool) (it : Iter)

/-- **Specification.** A sprinkled causet in good order: the state of the program is consistent and its links exact, the events of the causet exist, form a closed set
and have coordinates in the region. -/
structure SprGood (reg : Set Point) (s : SprState) : Prop where
  valid : s.world.heap.Valid
  links : s.world.heap.LinksExact
  exist : ∀ e ∈ s.events, s.world.heap.Exists e
  closed : Closed s.world.heap.Lt s.events
  inside : ∀ e ∈ s.events, ∃ x ∈ reg, s.world.crd e = some x

/-- **Specification.** `<` on the causet is the causality of the coordinates (for pairwise different events that do not precede each other mutually). -/
def SprOrdered (s : SprState) : Prop :=
  (∀ a ∈ s.events, ∀ b ∈ s.events, ∀ x y, s.world.crd a = some x → s.world.crd b = some y → a ≠ b → ¬ ((c x y).1 = true ∧ (c y x).1 = true)) →
    ∀ a ∈ s.events, ∀ b ∈ s.events, ∀ x y, s.world.crd a = some x → s.world.crd b = some y → (s.world.heap.Lt a b ↔ a ≠ b ∧ (c x y).1 = true)

theorem superCreate_good (reg : Set Point) (hc : IsCausalOrder c reg) (s : SprState) (g : SprGood reg s) (rows : List Point) (fmt : Option (ℕ → String))
    (hrows : ∀ x ∈ rows, x ∈ reg) :
    ∃ es s', s.superCreate c it rows fmt true = (.ok es, s') ∧ SprGood reg s' ∧ es.card = rows.length ∧ (∀ e ∈ es, ¬ s.world.heap.Exists e) ∧ s'.events = s.events ∪ es ∧
      s'.intensity = s.intensity ∧ (∀ e ∈ s'.events, s'.world.heap.hasBeenLinked e = true) ∧ SprOrdered c s' ∧
      (∀ e, s.world.heap.Exists e → s'.world.crd e = s.world.crd e ∧ s'.world.heap.label e = s.world.heap.label e) := by
  obtain ⟨h1, h2, h3, h4, h5, h6, h7, h8, -⟩ := C42_create c reg hc it s.events rows fmt s.world g.valid g.links g.exist g.closed g.inside hrows
  have hemb : ∀ e ∈ s.events, (s.world.crd e).isSome := fun e he => by
    obtain ⟨x, -, hx⟩ := g.inside e he
    rw [hx]; rfl
  obtain ⟨ids, k1, k2, k3, k4, k5, -, k7⟩ := C46_create c it s.events rows fmt true s.world g.exist hemb
  refine ⟨ids.toFinset, (⟨(create c it s.events rows fmt true s.world).1, s.intensity, (create c it s.events rows fmt true s.world).2.2.2⟩ : SprState), ?_, ⟨h2, h3, h4, h5, h7⟩, ?_, ?_, k4, rfl, h6, h8, ?_⟩
  · unfold SprState.superCreate
    dsimp only
    rw [h1, ← k3]
  · rw [List.toFinset_card_of_nodup k2, k1]
  · intro e he
    exact (k5 e (List.mem_toFinset.1 he)).1
  · intro e he
    exact ⟨(k7 e he).2.2, (k7 e he).2.1⟩

/-- **C72.** `sprinkle(n)` into a cube, cuboid, ball or cylinder in a spacetime whose causality is a causal order on the shape, on a causet in good order: it succeeds, returns `n` new events and
adds them to the causet; all events have coordinates in the shape, the state is consistent, the causet closed and linked, its order is the causality of the coordinates; the
coordinates and labels of all older events are unchanged, and the intensity grows by `n`. -/
theorem C72_sprinkle (R : Draws) (junk : ℕ → Point) (S : CoordinateShape) (hS : S.WellFormed) (hb : S.name ≠ "bicone")
    (hc : IsCausalOrder c S.region) (n : ℕ) (hcyl : S.name = "cylinder" → 2 ≤ S.dim ∨ n = 0) (hR : ∀ i < n, ∀ bd, 0 < bd → normalNorm R bd i ≠ 0)
    (s : SprState) (g : SprGood S.region s) :
    ∃ es s', s.sprinkle c it R junk S.dim S n = (.ok es, s') ∧ SprGood S.region s' ∧ es.card = n ∧ (∀ e ∈ es, ¬ s.world.heap.Exists e) ∧ s'.events = s.events ∪ es ∧
      s'.intensity = s.intensity + n ∧ (∀ e ∈ s'.events, s'.world.heap.hasBeenLinked e = true) ∧ SprOrdered c s' ∧
      (∀ e, s.world.heap.Exists e → s'.world.crd e = s.world.crd e ∧ s'.world.heap.label e = s.world.heap.label e) := by
  obtain ⟨rows, h1, h2, h3⟩ := C48_in_region_partial R junk S hS hb n hcyl hR
  obtain ⟨es, s', k1, k2, k3, k4, k5, k6, k7, k8, k9⟩ := superCreate_good c it S.region hc { s with intensity := s.intensity + n } ⟨g.valid, g.links, g.exist, g.closed, g.inside⟩ rows none h3
  refine ⟨es, s', ?_, k2, k3.trans h2, k4, k5, k6, k7, k8, k9⟩
  unfold SprState.sprinkle
  rw [if_neg (by omega), h1]
  exact k1

/-- **C72.** The same for `intensify(λ)` with `λ ≥ 0`; the number of new events is the Poisson number `k`, the intensity grows by `λ`. -/
theorem C72_intensify (R : Draws) (junk : ℕ → Point) (S : CoordinateShape) (hS : S.WellFormed) (hb : S.name ≠ "bicone")
    (hc : IsCausalOrder c S.region) (lam : ℝ) (hl : 0 ≤ lam) (k : ℕ) (hcyl : S.name = "cylinder" → 2 ≤ S.dim ∨ k = 0)
    (hR : ∀ i < k, ∀ bd, 0 < bd → normalNorm R bd i ≠ 0) (s : SprState) (g : SprGood S.region s) :
    ∃ es s', s.intensify c it R junk S.dim S lam k = (.ok es, s') ∧ SprGood S.region s' ∧ es.card = k ∧ (∀ e ∈ es, ¬ s.world.heap.Exists e) ∧ s'.events = s.events ∪ es ∧
      s'.intensity = s.intensity + lam ∧ (∀ e ∈ s'.events, s'.world.heap.hasBeenLinked e = true) ∧ SprOrdered c s' ∧
      (∀ e, s.world.heap.Exists e → s'.world.crd e = s.world.crd e ∧ s'.world.heap.label e = s.world.heap.label e) := by
  obtain ⟨rows, h1, h2, h3⟩ := C48_in_region_partial R junk S hS hb k hcyl hR
  obtain ⟨es, s', k1, k2, k3, k4, k5, k6, k7, k8, k9⟩ := superCreate_good c it S.region hc { s with intensity := s.intensity + lam } ⟨g.valid, g.links, g.exist, g.closed, g.inside⟩ rows none h3
  refine ⟨es, s', ?_, k2, k3.trans h2, k4, k5, k6, k7, k8, k9⟩
  unfold SprState.intensify
  have : test (lam < 0) = false := by simpa [test] using hl
  rw [this, if_neg (by simp), h1]
  exact k1

/-- **C72.** A new `SprinkledCauset(card=n)`, `n > 0`, in a consistent program (whatever happened before): it has exactly `n` events, all in the shape, intensity `n`, is closed and linked, and ordered by
the causality of the coordinates. -/
theorem C72_new (R : Draws) (junk : ℕ → Point) (S : CoordinateShape) (hS : S.WellFormed) (hb : S.name ≠ "bicone")
    (hc : IsCausalOrder c S.region) (n : ℕ) (hn : 0 < n) (hcyl : S.name = "cylinder" → 2 ≤ S.dim) (hR : ∀ i < n, ∀ bd, 0 < bd → normalNorm R bd i ≠ 0)
    (lam : ℝ) (k : ℕ) (w : World Point) (v : w.heap.Valid) (lx : w.heap.LinksExact) :
    ∃ s', SprState.init c it R junk S.dim S n lam k w = (.ok s'.events, s') ∧ SprGood S.region s' ∧ s'.events.card = n ∧ s'.intensity = n ∧
      (∀ e ∈ s'.events, ¬ w.heap.Exists e) ∧ (∀ e ∈ s'.events, s'.world.heap.hasBeenLinked e = true) ∧ SprOrdered c s' := by
  have g0 : SprGood S.region { events := ∅, intensity := 0, world := w } := ⟨v, lx, by simp, by intro x hx; simp at hx, by simp⟩
  obtain ⟨es, s', k1, k2, k3, k4, k5, k6, k7, k8, k9⟩ := C72_sprinkle c it R junk S hS hb hc n (fun h => Or.inl (hcyl h)) hR _ g0
  simp only [Finset.empty_union] at k5
  refine ⟨s', ?_, k2, by rw [k5, k3], by rw [k6]; simp, ?_, k7, k8⟩
  · unfold SprState.init
    rw [if_pos (by exact_mod_cast hn), k1, k5]
  · intro e he
    exact k4 e (k5 ▸ he)

/-- **Specification.** The states reached from `s` by any sequence of `sprinkle` and `intensify` calls (of sprinkleable shapes inside the region `reg`) and `create` calls with coordinates in `reg`,
raising or not. -/
inductive SprSprinkled (reg : Set Point) (s : SprState) : SprState → Prop
  | start : SprSprinkled reg s s
  | sprinkle {s1 : SprState} (R : Draws) (junk : ℕ → Point) (S : CoordinateShape) (hS : S.WellFormed) (hb : S.name ≠ "bicone") (hreg : S.region ⊆ reg) (n : ℤ)
      (hR : ∀ i, ∀ bd, 0 < bd → normalNorm R bd i ≠ 0) (h : SprSprinkled reg s s1) : SprSprinkled reg s (s1.sprinkle c it R junk S.dim S n).2
  | intensify {s1 : SprState} (R : Draws) (junk : ℕ → Point) (S : CoordinateShape) (hS : S.WellFormed) (hb : S.name ≠ "bicone") (hreg : S.region ⊆ reg) (lam : ℝ) (k : ℕ)
      (hR : ∀ i, ∀ bd, 0 < bd → normalNorm R bd i ≠ 0) (h : SprSprinkled reg s s1) : SprSprinkled reg s (s1.intensify c it R junk S.dim S lam k).2
  | create {s1 : SprState} (coords : List Point) (fmt : Option (ℕ → String)) (hreg : ∀ x ∈ coords, x ∈ reg) (h : SprSprinkled reg s s1) :
      SprSprinkled reg s (s1.create c it coords fmt true).2

theorem sprinkleCoords_reg (R : Draws) (junk : ℕ → Point) (S : CoordinateShape) (hS : S.WellFormed) (hb : S.name ≠ "bicone") (n : ℤ)
    (hR : ∀ i, ∀ bd, 0 < bd → normalNorm R bd i ≠ 0) (rows : List Point) (h : sprinkleCoords R junk S.dim n S = .ok rows) : ∀ x ∈ rows, x ∈ S.region := by
  obtain ⟨h0, hl⟩ := sprinkleCoords_length h
  obtain ⟨m, rfl⟩ := Int.eq_ofNat_of_zero_le h0
  by_cases hcyl : S.name = "cylinder" → 2 ≤ S.dim ∨ m = 0
  · obtain ⟨rows', h1, -, h3⟩ := C48_in_region_partial R junk S hS hb m hcyl (fun i _ => hR i)
    have : rows = rows' := by
      have h' : sprinkleCoords R junk S.dim m S = .ok rows := h
      rw [h1] at h'
      injection h' with h'
      exact h'.symm
    rw [this]; exact h3
  · push Not at hcyl
    have h1 := C48_cylinder_1d R junk S hcyl.1 (by have := hS.1; omega) m hcyl.2.2
    have h' : sprinkleCoords R junk S.dim m S = .ok rows := h
    rw [h1] at h'
    exact absurd h' (by simp)

/-- **C72, histories.** After every sequence of such calls (also if some raise) the causet is in good order: consistent state, exact links, closed, all events inside the region. -/
theorem C72_history (reg : Set Point) (hc : IsCausalOrder c reg) (s s' : SprState) (g : SprGood reg s) (h : SprSprinkled c it reg s s') :
    SprGood reg s' := by
  induction h with
  | start => exact g
  | @sprinkle s1 R junk S hS hb hreg n hR h ih =>
    unfold SprState.sprinkle
    split
    · exact ih
    · dsimp only
      split
      · exact ⟨ih.valid, ih.links, ih.exist, ih.closed, ih.inside⟩
      · rename_i rows hrows
        obtain ⟨es, s2, k1, k2, -⟩ := superCreate_good c it reg hc { s1 with intensity := s1.intensity + n } ⟨ih.valid, ih.links, ih.exist, ih.closed, ih.inside⟩ rows none
          (fun x hx => hreg (sprinkleCoords_reg R junk S hS hb n hR rows hrows x hx))
        rw [k1]; exact k2
  | @intensify s1 R junk S hS hb hreg lam k hR h ih =>
    unfold SprState.intensify
    split
    · exact ih
    · dsimp only
      split
      · exact ⟨ih.valid, ih.links, ih.exist, ih.closed, ih.inside⟩
      · rename_i rows hrows
        obtain ⟨es, s2, k1, k2, -⟩ := superCreate_good c it reg hc { s1 with intensity := s1.intensity + lam } ⟨ih.valid, ih.links, ih.exist, ih.closed, ih.inside⟩ rows none
          (fun x hx => hreg (sprinkleCoords_reg R junk S hS hb k hR rows hrows x hx))
        rw [k1]; exact k2
  | @create s1 coords fmt hreg h ih =>
    obtain ⟨es, s2, k1, k2, -⟩ := superCreate_good c it reg hc s1 ih coords fmt hreg
    unfold SprState.create
    rw [k1]
    exact ⟨k2.valid, k2.links, k2.exist, k2.closed, k2.inside⟩

/-- The hypotheses of `C72_new` hold: a cylinder of dimension 3 in de Sitter spacetime in a new program. -/
example : ∃ (S : CoordinateShape) (R : Draws), S.WellFormed ∧ S.name ≠ "bicone" ∧ IsCausalOrder (causalityDS 0 3 1) S.region ∧ (S.name = "cylinder" → 2 ≤ S.dim) ∧
    (∀ i, ∀ bd, 0 < bd → normalNorm R bd i ≠ 0) ∧ Heap.empty.Valid ∧ Heap.empty.LinksExact := by
  have ho := C44_deSitter_order 3 (by norm_num) 1
  have hno : ∀ a b, ¬ Heap.empty.Lt a b := fun a b hab => by simp [Heap.Lt, Heap.lt, Heap.empty] at hab
  refine ⟨{ dim := 3, name := "cylinder", center := [0, 0, 0], radius := some 1, hollow := some 0, duration := some 2 },
    ⟨fun _ => 1/3, fun k => (k.getD 1 0 : ℝ) + 1, fun _ => by norm_num⟩, ⟨by norm_num, rfl, ?_⟩, by simp,
    ⟨fun x _ y _ z _ => ho.trans x trivial y trivial z trivial, fun x _ y _ => ho.after x trivial y trivial⟩, by simp, ?_, ?_, ?_⟩
  · exact Or.inr (Or.inr (Or.inl ⟨1, 0, 2, by norm_num, le_refl _, by norm_num, by norm_num, rfl⟩))
  · intro i bd hbd
    unfold normalNorm
    simp only [List.getD_cons_succ, List.getD_cons_zero, Finset.sum_const, Finset.card_range, nsmul_eq_mul]
    have : (0 : ℝ) < bd := by exact_mod_cast hbd
    positivity
  · refine ⟨⟨fun a => hno a a, fun a b d h1 => absurd h1 (hno _ _)⟩, fun a b => ?_, fun a b => ?_, fun a b hab => absurd hab (hno _ _)⟩
    · simp [Heap.past, Heap.empty, Heap.Lt, Heap.lt]
    · simp [Heap.future, Heap.empty, Heap.Lt, Heap.lt]
  · refine ⟨fun e s hs => ?_, fun e s hs => ?_, fun e => ?_⟩
    · simp [Heap.empty] at hs
    · simp [Heap.empty] at hs
    · simp [Heap.empty]

end Causets
