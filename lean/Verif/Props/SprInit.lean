import Verif.Props.EmbInit
import Verif.Props.SprinkleOrder
import Verif.Props.Intensity

/-! # C82 — the constructor of `SprinkledCauset` (sprinkledcauset.py:25-48) -/

namespace Causets
open Heap

/-- shapes chosen by compatible arguments are well-formed -/
theorem Compatible.wellFormed {sp : SpacetimeArg} {sh : ShapeArg} {co : CoordsArg} {dim : ℤ} {d : ℕ} {M : SpacetimeObj} {S : CoordinateShape}
    (hsp : ∀ N, sp = .obj N → N.Constructed) (hsh : ∀ T, sh = .obj T → T.WellFormed) (hc : Compatible sp sh co dim d M S) : S.WellFormed ∧ S.dim = d := by
  obtain ⟨m1, m2, m3⟩ := (initSpacetime_spec sp d hsp).1 M hc.2.2.1
  obtain ⟨D, q1, q2, q3⟩ := defaultShape_spec M (by omega)
  rw [m2] at q2 q3
  obtain ⟨-, hSd⟩ := (initShape_spec sh D M.defaultRegion d m3 q3 q2).1 S hc.2.2.2.1
  refine ⟨?_, hSd⟩
  have h := hc.2.2.2.1
  have key : ∀ s, CoordinateShape.init d s {} = .ok S → S.WellFormed := by
    intro s hs
    obtain ⟨k1, k2⟩ := shapeInit_name d s
    by_cases h' : 1 ≤ d ∧ s ∈ ["ball", "bicone", "diamond", "cylinder", "cube", "cuboid"]
    · obtain ⟨T, h1, -, h3⟩ := k1 h'
      rw [hs] at h1
      rw [Except.ok.inj h1]; exact h3
    · rw [k2 h'] at hs
      exact absurd hs (by simp)
  cases sh with
  | none => exact key _ h
  | name s => exact key _ h.2
  | obj T => rw [h.1]; exact hsh T rfl

/-- **C82.** `SprinkledCauset(card=n, dim=..., spacetime=..., shape=...)` with compatible arguments, `n > 0` and a region other than a bicone, in a
spacetime whose causality describes a causal order on the region: it has exactly `n` events, all in the region the arguments stand for, intensity
`n`, and it is linked and ordered by the causality of the coordinates. -/
theorem C82_new_partial (eps : ℝ) (it : Iter) (R : Draws) (junk : ℕ → Point) (n : ℕ) (hn : 0 < n) (lam : ℝ) (k : ℕ) (dim : ℤ) (sp : SpacetimeArg)
    (sh : ShapeArg) (hsp : ∀ N, sp = .obj N → N.Constructed) (hsh : ∀ T, sh = .obj T → T.WellFormed)
    {d : ℕ} {M : SpacetimeObj} {S : CoordinateShape} (hc : Compatible sp sh .none dim d M S) (hb : S.name ≠ "bicone")
    (hcyl : S.name = "cylinder" → 2 ≤ d) (hord : IsCausalOrder (M.causality eps) S.region)
    (hR : ∀ i < n, ∀ bd, 0 < bd → normalNorm R bd i ≠ 0) (w : World Point) (v : w.heap.Valid) (lx : w.heap.LinksExact) :
    ∃ s', sprInit eps it R junk n lam k dim sp sh w = (.ok (M, S), s') ∧ SprGood S.region s' ∧ s'.events.card = n ∧ s'.intensity = n ∧
      (∀ e ∈ s'.events, ¬ w.heap.Exists e) ∧ (∀ e ∈ s'.events, s'.world.heap.hasBeenLinked e = true) ∧ SprOrdered (M.causality eps) s' := by
  have hno : ¬ NoDimension sp sh .none dim := by cases sp <;> cases sh <;> simp [NoDimension]
  obtain ⟨hwf, hSd⟩ := hc.wellFormed hsp hsh
  have ha := C81_accepts sp sh .none dim hsp hno hc
  have hE : embInit eps it sp sh .none dim w = (.ok ⟨M, S, ∅⟩, w) := by
    unfold embInit
    rw [ha]
    rfl
  obtain ⟨s', h1, h2⟩ := C72_new (M.causality eps) it R junk S hwf hb hord n hn (fun h => by rw [hSd]; exact hcyl h) hR lam k w v lx
  refine ⟨s', ?_, h2⟩
  unfold sprInit
  rw [hE]
  dsimp only [EmbObj.dim]
  rw [h1]

/-- **C82, errors.** Incompatible arguments raise ValueError, and no event is created. -/
theorem C82_rejects (eps : ℝ) (it : Iter) (R : Draws) (junk : ℕ → Point) (card : ℤ) (lam : ℝ) (k : ℕ) (dim : ℤ) (sp : SpacetimeArg)
    (sh : ShapeArg) (hsp : ∀ N, sp = .obj N → N.Constructed) (hc : ∀ d M S, ¬ Compatible sp sh .none dim d M S) (w : World Point) :
    sprInit eps it R junk card lam k dim sp sh w = (.error .valueError, ⟨∅, 0, w⟩) := by
  have hno : ¬ NoDimension sp sh .none dim := by cases sp <;> cases sh <;> simp [NoDimension]
  have := (C81_rejects_partial sp sh .none dim hsp hno (by simp)).1 hc
  unfold sprInit embInit
  rw [this]

/-- **C82, refuted for the default arguments.** `SprinkledCauset(card=n)`, and every call with a flat spacetime without periods and no shape, creates its `n`
events at the contents of uninitialised memory: the default shape is a diamond, which is not sprinkled at all. -/
theorem C82_default_refuted (eps : ℝ) (it : Iter) (R : Draws) (junk : ℕ → Point) (n : ℕ) (hn : 0 < n) (lam : ℝ) (k : ℕ) (dim : ℤ)
    (sp : SpacetimeArg) (hsp : ∀ N, sp = .obj N → N.Constructed) {d : ℕ} {M : FlatSpacetime} {S : CoordinateShape}
    (hc : Compatible sp .none .none dim d (.flat M) S) (hp : M.isPeriodic = false) (w : World Point) :
    ∃ s' ids, sprInit eps it R junk n lam k dim sp .none w = (.ok (.flat M, S), s') ∧ s'.events = List.toFinset ids ∧ ids.length = n ∧ ids.Nodup ∧
      ∀ (i : ℕ) e, ids[i]? = some e → s'.world.crd e = some (junk i) := by
  have hno : ¬ NoDimension sp .none .none dim := by cases sp <;> simp [NoDimension]
  obtain ⟨hwf, hSd⟩ := hc.wellFormed hsp (by simp)
  have ha := C81_accepts sp .none .none dim hsp hno hc
  have hE : embInit eps it sp .none .none dim w = (.ok ⟨.flat M, S, ∅⟩, w) := by
    unfold embInit
    rw [ha]
    rfl
  have hname : S.name = "bicone" := by
    have h1 := hc.2.2.2.1
    simp only [ShapeArg.Means, SpacetimeObj.defaultRegion, hp, Bool.false_eq_true, if_false] at h1
    obtain ⟨-, m2, m3⟩ := (initSpacetime_spec sp d hsp).1 (.flat M) hc.2.2.1
    have hv : ValidShape (d : ℤ) "diamond" {} := by
      refine ⟨by omega, by simp, ?_, ?_, ?_, ?_, ?_⟩ <;> simp
    obtain ⟨T, g1, -, -, g4, -⟩ := (C52_init (d : ℤ) "diamond" {}).1 hv
    rw [h1] at g1
    rw [Except.ok.inj g1, g4]; simp
  have hrows := C48_bicone_uninitialised R junk S hname n
  obtain ⟨ids, i1, i2, i3, i4, i5, i6, i7⟩ := C46_create ((SpacetimeObj.flat M).causality eps) it ∅ ((List.range n).map junk) none true w (by simp) (by simp)
  have hok := C46_create_ok ((SpacetimeObj.flat M).causality eps) it ∅ ((List.range n).map junk) none true w (by simp) (by simp)
  refine ⟨⟨(create ((SpacetimeObj.flat M).causality eps) it ∅ ((List.range n).map junk) none true w).1, 0 + n,
    (create ((SpacetimeObj.flat M).causality eps) it ∅ ((List.range n).map junk) none true w).2.2.2⟩, ids, ?_, by rw [i4]; simp, by rw [i1]; simp, i2, ?_⟩
  · unfold sprInit
    rw [hE]
    dsimp only [EmbObj.dim]
    unfold SprState.init
    rw [if_pos (by exact_mod_cast hn)]
    unfold SprState.sprinkle
    rw [if_neg (by omega), hrows]
    unfold SprState.superCreate
    dsimp only
    rw [hok]
    simp
  · intro i e hi
    have hlt : i < n := by
      have := (List.getElem?_eq_some_iff.1 hi).1
      rw [i1] at this; simpa using this
    rw [(i6 i e hi).2]
    simp [hlt]

/-- hypotheses satisfiable: `SprinkledCauset(card=n)` -/
example : ∃ S, Compatible .none .none .none (-1) 2 (.flat ⟨2, false, none⟩) S := by
  obtain ⟨S, hS, -⟩ := (shapeInit_name 2 "diamond").1 ⟨by norm_num, by decide⟩
  exact ⟨S, fun _ => rfl, Or.inl (by norm_num), ⟨by norm_num, rfl⟩, hS, trivial⟩

/-- hypotheses satisfiable: `SprinkledCauset(card=n, dim=3, spacetime='de Sitter')` -/
example : ∃ S, Compatible (.name "de Sitter") .none .none 3 3 (.deSitter 3 1) S ∧ S.name ≠ "bicone" ∧ IsCausalOrder ((SpacetimeObj.deSitter 3 1).causality 0) S.region := by
  obtain ⟨S, hS, -⟩ := (shapeInit_name 3 "cylinder").1 ⟨by norm_num, by decide⟩
  refine ⟨S, ⟨fun h => absurd h.1 (by norm_num), Or.inr rfl, Or.inr (Or.inl ⟨by decide, by norm_num, rfl⟩), hS, trivial⟩, ?_, ?_⟩
  · have hv : ValidShape ((3 : ℕ) : ℤ) "cylinder" {} := by
      refine ⟨by norm_num, by simp, ?_, ?_, ?_, ?_, ?_⟩ <;> simp
    obtain ⟨T, g1, -, -, g4, -⟩ := (C52_init _ _ _).1 hv
    rw [hS] at g1
    rw [Except.ok.inj g1, g4]
    decide
  · have h := C44_deSitter_order 3 (by norm_num) 1
    exact ⟨fun x _ y _ z _ => h.trans x trivial y trivial z trivial, fun x _ y _ => h.after x trivial y trivial⟩

end Causets
