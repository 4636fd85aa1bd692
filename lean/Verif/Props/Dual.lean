import Verif.Lemmas.Dual
import Verif.Props.Matrix

/-! # C110 — Time reversal: exchanging past and future exchanges the answers -/

namespace Causets
open Heap

variable {h h' : Heap} {U : Finset EId} {f : EId → EId}

/-- **Specification.** `f` maps the events of `U`, a causally closed set of events ordered by `lt`, one to one onto the events of a causally closed set ordered by `lt'`, and
reverses all relations: the second causet is the first one with past and future exchanged. -/
structure TimeReverse (lt lt' : ℕ → ℕ → Prop) (U : Finset ℕ) (f : ℕ → ℕ) : Prop where
  inj : ∀ a ∈ U, ∀ b ∈ U, f a = f b → a = b
  closed : Closed lt U
  closed' : Closed lt' (U.image f)
  iff : ∀ a ∈ U, ∀ b ∈ U, lt a b ↔ lt' (f b) (f a)

theorem TimeReverse.iso (φ : TimeReverse h.Lt h'.Lt U f) (v' : h'.Valid) : CausalIso h.Lt h'.dual.Lt U f where
  inj := φ.inj
  closed := φ.closed
  closed' := by rw [dual_Lt_eq v', closed_flip]; exact φ.closed'
  iff := by rw [dual_Lt_eq v']; exact φ.iff

section
variable (φ : TimeReverse h.Lt h'.Lt U f) (v : h.Valid) (v' : h'.Valid)
include φ v v'

/-- **C110, events.** `<` becomes `>`, pasts become futures; causal and spacelike relations and cones stay. -/
theorem C110_events {a b : EId} (ha : a ∈ U) (hb : b ∈ U) :
    (h'.lt (f a) (f b) = h.gt a b ∧ h'.le (f a) (f b) = h.ge a b ∧ h'.gt (f a) (f b) = h.lt a b ∧ h'.ge (f a) (f b) = h.le a b ∧
      h'.isCausalTo (f a) (f b) = h.isCausalTo a b ∧ h'.isSpacelikeTo (f a) (f b) = h.isSpacelikeTo a b) ∧
    (h'.past (f a) = (h.future a).image f ∧ h'.future (f a) = (h.past a).image f ∧ h'.cone (f a) = (h.cone a).image f ∧
      h'.presentOrPast (f a) = (h.presentOrFuture a).image f ∧ h'.presentOrFuture (f a) = (h.presentOrPast a).image f) ∧
    (h'.pastCard (f a) = h.futureCard a ∧ h'.futureCard (f a) = h.pastCard a ∧ h'.coneCard (f a) = h.coneCard a) ∧
    (∀ s ⊆ U, h'.spacelike (f a) (s.image f) = (h.spacelike a s).image f ∧ h'.spacelikeCard (f a) (s.image f) = h.spacelikeCard a s) ∧
    (∀ ib, h'.interval (f b) (f a) ib = (h.interval a b ib).image f ∧ h'.intervalCard (f b) (f a) ib = h.intervalCard a b ib) := by
  obtain ⟨⟨a1, a2, a3, a4, a5, a6⟩, ⟨b1, b2, b3, b4, b5⟩, ⟨c1, c2, c3⟩, d, e⟩ := C109_events (φ.iso v') v (dual_valid v') ha hb
  rw [dual_gt v'] at a3
  rw [dual_lt v'] at a1
  rw [dual_ge v'] at a4
  rw [dual_le v'] at a2
  rw [dual_isCausalTo v'] at a5
  rw [dual_isSpacelikeTo] at a6
  rw [dual_cone] at b3
  rw [dual_coneCard] at c3
  refine ⟨⟨a3, a4, a1, a2, a5, a6⟩, ⟨b2, b1, b3, b5, b4⟩, ⟨c2, c1, c3⟩, fun s hs => ?_, fun ib => ?_⟩
  · have := d s hs
    rwa [dual_spacelike, dual_spacelikeCard] at this
  · have := e ib
    rwa [dual_interval v', dual_intervalCard v'] at this

/-- **C110, sets.** `PastOf` and `FutureOf` are exchanged, and past and future infinity; `ConeOf`, `SpacelikeTo`, `isChain` and `isAntichain` stay. -/
theorem C110_sets (it it' : Iter) {C s : Finset EId} (hC : C ⊆ U) (hs : s ⊆ U) :
    (∀ p i, h'.pastOf it' (s.image f) p i = (h.futureOf it s p i).image f ∧ h'.futureOf it' (s.image f) p i = (h.pastOf it s p i).image f ∧ h'.coneOf it' (s.image f) p i = (h.coneOf it s p i).image f) ∧
    h'.spacelikeTo it' (C.image f) (s.image f) = (h.spacelikeTo it C s).image f ∧
    (h'.isChain it' (C.image f) (some (s.image f)) = h.isChain it C (some s) ∧ h'.isChain it' (C.image f) none = h.isChain it C none ∧
      h'.isAntichain it' (C.image f) (some (s.image f)) = h.isAntichain it C (some s) ∧ h'.isAntichain it' (C.image f) none = h.isAntichain it C none) ∧
    (h'.pastInf (C.image f) = (h.futureInf C).image f ∧ h'.futureInf (C.image f) = (h.pastInf C).image f ∧ h'.pastInfOf (s.image f) = (h.futureInfOf s).image f ∧
      h'.futureInfOf (s.image f) = (h.pastInfOf s).image f) ∧
    (h'.pastInfCard it' (C.image f) = h.futureInfCard it C ∧ h'.futureInfCard it' (C.image f) = h.pastInfCard it C ∧ h'.pastInfCardOf it' (s.image f) = h.futureInfCardOf it s ∧
      h'.futureInfCardOf it' (s.image f) = h.pastInfCardOf it s) := by
  have inf : ∀ t ⊆ U, (h'.pastInf (t.image f) = (h.futureInf t).image f ∧ h'.futureInf (t.image f) = (h.pastInf t).image f ∧ h'.pastInfOf (t.image f) = (h.futureInfOf t).image f ∧
      h'.futureInfOf (t.image f) = (h.pastInfOf t).image f) := fun t ht => by
    obtain ⟨-, -, -, ⟨d1, d2, d3, d4⟩, -⟩ := C109_sets (φ.iso v') v (dual_valid v') it it' ht ht
    exact ⟨d2, d1, d4, d3⟩
  obtain ⟨a, b, ⟨c1, c2, c3, c4⟩, ⟨d1, d2, d3, d4⟩, -⟩ := C109_sets (φ.iso v') v (dual_valid v') it it' hC hs
  rw [dual_spacelikeTo it' v'] at b
  rw [dual_isChain] at c1 c2
  rw [dual_isAntichain] at c3 c4
  refine ⟨fun p i => ?_, b, ⟨c1, c2, c3, c4⟩, ⟨d2, d1, d4, d3⟩, ?_⟩
  · have := a p i
    rw [dual_pastOf it' v', dual_futureOf it' v', dual_coneOf it' v'] at this
    exact ⟨this.2.1, this.1, this.2.2⟩
  · obtain ⟨a1, a2, -, -⟩ := C23_cards it h C
    obtain ⟨-, -, a3, a4⟩ := C23_cards it h s
    obtain ⟨b1, b2, -, -⟩ := C23_cards it' h' (C.image f)
    obtain ⟨-, -, b3, b4⟩ := C23_cards it' h' (s.image f)
    have ψ := φ.iso v'
    rw [a1, a2, a3, a4, b1, b2, b3, b4, (inf C hC).1, (inf C hC).2.1, (inf s hs).2.2.1, (inf s hs).2.2.2]
    exact ⟨ψ.card ((Finset.filter_subset _ _).trans hC), ψ.card ((Finset.filter_subset _ _).trans hC), ψ.card ((Finset.filter_subset _ _).trans hs), ψ.card ((Finset.filter_subset _ _).trans hs)⟩

/-- **C110, layers.** The layers from `first` to `last` become those from `-last` to `-first` — if the set is an antichain or no bound is 0 —, layer numbers change their sign and are counted from
the other end, and `layered` is exchanged with the reversed `layered`. -/
theorem C110_layers_partial (it it' : Iter) {C s : Finset EId} (hC : C ⊆ U) (hs : s ⊆ U) {l : List EId} (hl : ∀ x ∈ l, x ∈ U) (r : Bool) :
    (∀ first last, IsAntichainSet h.Lt s ∨ (first ≠ 0 ∧ last ≠ 0) → h'.layers it' (s.image f) (-last) (some (-first)) = (h.layers it s first (some last)).image f) ∧
    h'.layerNumbers (l.map f) (!r) = (h.layerNumbers l r).map (fun n => -n) ∧
    h'.layered it' (C.image f) (some (s.image f)) (!r) = (h.layered it C (some s) r).map (List.map (fun x => x.image f)) ∧
    h'.layered it' (C.image f) none (!r) = (h.layered it C none r).map (List.map (fun x => x.image f)) := by
  obtain ⟨a, b, c, d⟩ := C109_layers (φ.iso v') v (dual_valid v') it it' hC hs hl r
  rw [dual_layered it' v'] at c d
  rw [dual_layerNumbers v'] at b
  refine ⟨fun first last hx => ?_, ?_, c, d⟩
  · have := a first (some last)
    rw [dual_layers it' v'] at this
    · exact this
    · refine hx.imp (fun anti x hx y hy => ?_) id
      obtain ⟨p, hp, rfl⟩ := Finset.mem_image.1 hx
      obtain ⟨q, hq, rfl⟩ := Finset.mem_image.1 hy
      rw [← φ.iff q (hs hq) p (hs hp)]
      exact anti q hq p hp
  · rw [← b, List.map_map]
    simp [Function.comp_def]

/-- **C110, distances.** Interval sizes, distance matrices and paths along antichains do not change. -/
theorem C110_distances (it it' : Iter) {C : Finset EId} (hC : C ⊆ U) {l : List EId} (hl : ∀ x ∈ l, x ∈ U) {a b : EId} (ha : a ∈ U) (hb : b ∈ U) :
    (∀ p o : Option (Finset EId), (∀ s ∈ p, s ⊆ U) → (∀ s ∈ o, s ⊆ U) →
      h'.smallestIntervalCard (C.image f) (f a) (f b) (p.map (fun s => s.image f)) (o.map (fun s => s.image f)) = h.smallestIntervalCard C a b p o) ∧
    (∀ counting r, h'.distanceMatrix it' (C.image f) (l.map f) counting r = h.distanceMatrix it C l counting r) ∧
    (∀ depth D, h'.antipaths it' (C.image f) depth (f a) (f b) (l.map f) D = (h.antipaths it C depth a b l D).map (List.map (List.map f))) := by
  obtain ⟨x, y, z⟩ := C109_distances (φ.iso v') v (dual_valid v') it it' hC hl ha hb
  simp only [dual_smallestIntervalCard v', dual_distanceMatrix it' v', dual_antipaths it' v'] at x y z
  exact ⟨x, y, z⟩

/-- **C110, components and causets.** `disjoint` returns corresponding components (in some order), `isDisjoint` the same answer; `Causet(S)` of corresponding sets are corresponding causets. -/
theorem C110_components (it it' : Iter) {C : Finset EId} (hC : C ⊆ U) (o : Option (Finset EId)) (ho : ∀ s ∈ o, s ⊆ U) :
    ((∃ ls ls', h.disjointSets it C o = .ok ls ∧ h'.disjointSets it' (C.image f) (o.map (fun s => s.image f)) = .ok ls' ∧ ls'.Perm (ls.map (fun x => x.image f))) ∧
      h'.isDisjoint it' (C.image f) (o.map (fun s => s.image f)) = h.isDisjoint it C o) ∧
    (∀ s ⊆ U, (∀ e ∈ s, h.Exists e) → (∀ e ∈ s, h'.Exists (f e)) → ∃ K, h.causetInit it s = .ok K ∧ K ⊆ U ∧ h'.causetInit it' (s.image f) = .ok (K.image f)) := by
  constructor
  · have := C109_components (φ.iso v') v (dual_valid v') it it' hC o ho
    rwa [dual_disjointSets it' v', dual_isDisjoint it' v'] at this
  · intro s hs h1 h2
    have := C109_causets (φ.iso v') v (dual_valid v') it it' hs h1 h2
    rwa [dual_causetInit it' v'] at this

/-- **C110, links.** `LinkPast` and `LinkFuture` (and their cardinalities and tests) are exchanged; `LinkCone`, perimetral and internal events stay. -/
theorem C110_links {a b : EId} (ha : a ∈ U) (hb : b ∈ U) :
    h.Corresponds h' (linkPast a) (linkFuture (f a)) (fun x y => y = x.image f) ∧ h.Corresponds h' (linkFuture a) (linkPast (f a)) (fun x y => y = x.image f) ∧
    h.Corresponds h' (linkCone a) (linkCone (f a)) (fun x y => y = x.image f) ∧ h.Corresponds h' (linkPastCard a) (linkFutureCard (f a)) (fun x y => y = x) ∧
    h.Corresponds h' (linkFutureCard a) (linkPastCard (f a)) (fun x y => y = x) ∧ h.Corresponds h' (linkConeCard a) (linkConeCard (f a)) (fun x y => y = x) ∧
    h.Corresponds h' (isPastLink a b) (isFutureLink (f a) (f b)) (fun x y => y = x) ∧ h.Corresponds h' (isFutureLink a b) (isPastLink (f a) (f b)) (fun x y => y = x) ∧
    h.Corresponds h' (isLinkedTo a b) (isLinkedTo (f a) (f b)) (fun x y => y = x) ∧
    h.Corresponds h' (perimetralEvents a b) (perimetralEvents (f b) (f a)) (fun x y => y = x.image f) ∧
    h.Corresponds h' (internalEvents a b) (internalEvents (f b) (f a)) (fun x y => y = x.image f) ∧
    h.Corresponds h' (perimetralEventCount a b) (perimetralEventCount (f b) (f a)) (fun x y => y = x) ∧
    h.Corresponds h' (internalEventCount a b) (internalEventCount (f b) (f a)) (fun x y => y = x) := by
  have ψ := φ.iso v'
  have w := dual_valid v'
  have hp : h.pastLinks a ⊆ U := (Finset.filter_subset _ _).trans (ψ.past_sub v w ha)
  have hpb : h.pastLinks b ⊆ U := (Finset.filter_subset _ _).trans (ψ.past_sub v w hb)
  have hf : h.futureLinks a ⊆ U := (Finset.filter_subset _ _).trans (ψ.future_sub v w ha)
  have ep : h'.futureLinks (f a) = (h.pastLinks a).image f := by rw [← dual_pastLinks v']; exact ψ.pastLinks v w ha
  have ef : h'.pastLinks (f a) = (h.futureLinks a).image f := by rw [← dual_futureLinks v']; exact ψ.futureLinks v w ha
  have epb : h'.futureLinks (f b) = (h.pastLinks b).image f := by rw [← dual_pastLinks v']; exact ψ.pastLinks v w hb
  have hcov : ∀ {x y : EId}, x ∈ U → y ∈ U → (Covers h'.Lt (f y) (f x) ↔ Covers h.Lt x y) := fun {x y} hx hy => by
    rw [← ψ.covers hx hy, dual_Lt_eq v', covers_flip]
  have peri : h.Corresponds h' (perimetralEvents a b) (perimetralEvents (f b) (f a)) (fun x y => y = x.image f) := by
    refine corresponds_answers (perimetralEvents_answers v a b) (perimetralEvents_answers v' (f b) (f a)) ?_
    by_cases hab : h.Lt a b
    · rw [if_pos hab, if_pos ((φ.iff a ha b hb).1 hab), ef, epb, Finset.inter_comm, ψ.inter hf hpb]
    · rw [if_neg hab, if_neg (fun hx => hab ((φ.iff a ha b hb).2 hx)), Finset.image_empty]
  have inte : h.Corresponds h' (internalEvents a b) (internalEvents (f b) (f a)) (fun x y => y = x.image f) := by
    refine corresponds_of (C27_internal v a b) (C27_internal v' (f b) (f a)) fun x y hx hy => ?_
    refine ψ.of_mem (fun z hz => φ.closed a ha z (.inl ((hx z).1 hz).1.1)) (fun z hz => φ.closed' (f a) (Finset.mem_image_of_mem f ha) z (.inr ((hy z).1 hz).1.2)) fun z hz => ?_
    rw [hx, hy, ← φ.iff a ha z hz, ← φ.iff z hz b hb, hcov ha hz, hcov hz hb]
    tauto
  obtain ⟨p, i, c1, c2, c3, c4, -⟩ := C27_counts v a b
  obtain ⟨p', i', d1, d2, d3, d4, -⟩ := C27_counts v' (f b) (f a)
  have s0 := forget_sameOrder h
  have s0' := forget_sameOrder h'
  have x0 := forget_linksExact h
  have x0' := forget_linksExact h'
  refine ⟨corresponds_answers (linkPast_answers v a) (linkFuture_answers v' (f a)) ep, corresponds_answers (linkFuture_answers v a) (linkPast_answers v' (f a)) ef,
    corresponds_answers (linkCone_answers v a) (linkCone_answers v' (f a)) (by rw [ep, ef, Finset.image_union, Finset.union_comm]),
    corresponds_answers (linkPastCard_answers v a) (linkFutureCard_answers v' (f a)) (by rw [ep, ψ.card hp]), corresponds_answers (linkFutureCard_answers v a) (linkPastCard_answers v' (f a)) (by rw [ef, ψ.card hf]),
    corresponds_answers (linkConeCard_answers v a) (linkConeCard_answers v' (f a)) (by rw [ep, ef, ψ.card hp, ψ.card hf, Nat.and_comm]),
    corresponds_answers (isPastLink_answers v a b) (isFutureLink_answers v' (f a) (f b)) ?_, corresponds_answers (isFutureLink_answers v a b) (isPastLink_answers v' (f a) (f b)) ?_,
    corresponds_answers (isLinkedTo_answers v a b) (isLinkedTo_answers v' (f a) (f b)) ?_, peri, inte, corresponds_answers c1 d1 ?_, corresponds_answers c2 d2 ?_⟩
  · rw [decide_eq_decide, ep, ψ.mem_iff hb hp]
  · rw [decide_eq_decide, ef, ψ.mem_iff hb hf]
  · rw [decide_eq_decide, ep, ef, ← Finset.image_union, ψ.mem_iff hb (Finset.union_subset hf hp), Finset.union_comm]
  · have h1 := peri _ _ s0 x0 s0' x0'
    have h2 := (c3 _ s0 x0).1
    have h3 := (d3 _ s0' x0').1
    rw [← h2, ← h3, h1]
    refine ψ.card fun z hz => ?_
    have := (C27_perimetral v a b _ s0 x0).1 z
    exact φ.closed a ha z (.inl (this.1 hz).1.1)
  · have h1 := inte _ _ s0 x0 s0' x0'
    have h2 := (c4 _ s0 x0).1
    have h3 := (d4 _ s0' x0').1
    rw [← h2, ← h3, h1, ψ.card fun z hz => ?_]
    have := (C27_internal v a b _ s0 x0).1 z
    exact φ.closed a ha z (.inl (this.1 hz).1.1)

theorem TimeReverse.isRank {a b : EId} (ha : a ∈ U) (hb : b ∈ U) (r : ℕ∞) : IsRank h'.Lt (f b) (f a) r ↔ IsRank h.Lt a b r := by
  rw [← (φ.iso v').isRank ha hb, dual_Lt_eq v', isRank_flip]

theorem TimeReverse.isRankDown {s : Finset EId} (hs : s ⊆ U) {x : EId} (hx : x ∈ U) (n : ℤ) : IsRankDown h' (s.image f) (f x) (-n) ↔ IsRankUp h s x n := by
  rw [← (φ.iso v').isRankUp hs hx]
  unfold IsRankDown IsRankUp
  simp only [dual_Lt v', dual_Lt_eq v', isRank_flip, neg_neg, neg_eq_zero]

theorem TimeReverse.isRankUp {s : Finset EId} (hs : s ⊆ U) {x : EId} (hx : x ∈ U) (n : ℤ) : IsRankUp h' (s.image f) (f x) (-n) ↔ IsRankDown h s x n := by
  rw [← (φ.iso v').isRankDown hs hx]
  unfold IsRankDown IsRankUp
  simp only [dual_Lt v', dual_Lt_eq v', isRank_flip, neg_eq_zero]

omit φ v v' in
theorem rankUp_exists (v : h.Valid) (s : Finset EId) (x : EId) : ∃ n, IsRankUp h s x n ∧ ((∃ a ∈ s, h.Lt a x) → 1 ≤ n) ∧ ((¬∃ a ∈ s, h.Lt a x) → n = 0) := by
  obtain ⟨n, -, hn⟩ := (rankUp_spec Iter.asc v s x _ (forget_sameOrder h) (forget_linksExact h)).1
  refine ⟨n, hn, ?_, ?_⟩
  · rintro ⟨a, ha, hax⟩
    rcases hn with ⟨h1, -⟩ | h1
    · exact absurd hax (h1 a ha)
    · obtain ⟨r, hr⟩ := IsRank.exists v a x
      obtain ⟨m, rfl, hm, hr⟩ := hr.finite v hax
      have := h1.2 ⟨a, ha, m, hax, hr, rfl⟩
      omega
  · intro hno
    rcases hn with ⟨-, h1⟩ | h1
    · exact h1
    · obtain ⟨a, ha, m, hax, -⟩ := h1.1
      exact absurd ⟨a, ha, hax⟩ hno

omit φ v v' in
theorem rankDown_exists (v : h.Valid) (s : Finset EId) (x : EId) : ∃ n, IsRankDown h s x n ∧ ((∃ a ∈ s, h.Lt x a) → n ≤ -1) ∧ ((¬∃ a ∈ s, h.Lt x a) → n = 0) := by
  obtain ⟨n, -, hn⟩ := (rankDown_spec Iter.asc v s x _ (forget_sameOrder h) (forget_linksExact h)).1
  refine ⟨n, hn, ?_, ?_⟩
  · rintro ⟨a, ha, hax⟩
    rcases hn with ⟨h1, -⟩ | h1
    · exact absurd hax (h1 a ha)
    · obtain ⟨r, hr⟩ := IsRank.exists v x a
      obtain ⟨m, rfl, hm, hr⟩ := hr.finite v hax
      have := h1.2 ⟨a, ha, m, hax, hr, rfl⟩
      omega
  · intro hno
    rcases hn with ⟨-, h1⟩ | h1
    · exact h1
    · obtain ⟨a, ha, m, hax, -⟩ := h1.1
      exact absurd ⟨a, ha, hax⟩ hno

/-- **C110, ranks.** `Rank` does not change (from the second event to the first), rank numbers change their sign and are counted from the other end, and `Ranks` from `first` to `last`
becomes `Ranks` from `-last` to `-first` — if the set is an antichain or no bound is 0. -/
theorem C110_ranks_partial (it it' : Iter) {a b : EId} (ha : a ∈ U) (hb : b ∈ U) {s : Finset EId} (hs : s ⊆ U) {l : List EId} (hl : ∀ x ∈ l, x ∈ U) :
    (∀ ctx ctx' fuel fuel', h.next < fuel → h'.next < fuel' → h.Corresponds h' (rank it fuel ctx a b) (rank it' fuel' ctx' (f b) (f a)) (fun x y => y = x)) ∧
    (∀ rev, h.Corresponds h' (rankNumbers it l rev) (rankNumbers it' (l.map f) (!rev)) (fun x y => y = x.map (List.map (fun n => -n)))) ∧
    (∀ first last, IsAntichainSet h.Lt s ∨ (first ≠ 0 ∧ last ≠ 0) →
      h.Corresponds h' (ranks it s first (some last)) (ranks it' (s.image f) (-last) (some (-first))) (fun x y => y = x.map (fun t => t.image f))) := by
  have ψ := φ.iso v'
  have w := dual_valid v'
  refine ⟨fun ctx ctx' fuel fuel' hf hf' => ?_, fun rev => ?_, fun first last hx => ?_⟩
  · refine corresponds_of (C31_rank it v fuel (by omega) (by omega) ctx a b) (C31_rank it' v' fuel' (by omega) (by omega) ctx' (f b) (f a)) ?_
    rintro _ _ ⟨k, rfl, hk⟩ ⟨k', rfl, hk'⟩
    rw [((φ.isRank v v' ha hb k').1 hk').unique' hk]
  · have fu : ∀ {P P' : EId → ℤ → Prop}, (∀ x m n, P x m → P x n → m = n) → ∀ (L : List EId) (ns ms : List ℤ), (∀ x ∈ L, ∀ n, P' (f x) n → P x (-n)) →
        List.Forall₂ P L ns → List.Forall₂ P' (L.map f) ms → ms = ns.map (fun n => -n) := by
      intro P P' hP L
      induction L with
      | nil => intro ns ms _ h1 h2; cases h1; cases h2; rfl
      | cons x xs ih =>
        intro ns ms hx h1 h2
        rw [List.map_cons] at h2
        cases h1 with | cons p1 q1 => cases h2 with | cons p2 q2 =>
          rw [List.map_cons, ← hP _ _ _ (hx x (by simp) _ p2) p1, ih _ _ (fun y hy => hx y (by simp [hy])) q1 q2, neg_neg]
    have hls : l.toFinset ⊆ U := fun x hx => hl x (by simpa using hx)
    cases rev
    · refine corresponds_of (C32_rankNumbers it v l).1 (C32_rankNumbers it' v' (l.map f)).2 ?_
      rintro _ _ ⟨ns, rfl, h1⟩ ⟨ms, rfl, h2⟩
      rw [CausalIso.toFinset_map] at h2
      rw [fu (P := IsRankUp h l.toFinset) (fun _ _ _ => IsRankUp.unique) l ns ms (fun x hx n hn => (φ.isRankDown v v' hls (hl x hx) (-n)).1 (by rwa [neg_neg])) h1 h2]
      rfl
    · refine corresponds_of (C32_rankNumbers it v l).2 (C32_rankNumbers it' v' (l.map f)).1 ?_
      rintro _ _ ⟨ns, rfl, h1⟩ ⟨ms, rfl, h2⟩
      rw [CausalIso.toFinset_map] at h2
      rw [fu (P := IsRankDown h l.toFinset) (fun _ _ _ => IsRankDown.unique) l ns ms (fun x hx n hn => (φ.isRankUp v v' hls (hl x hx) (-n)).1 (by rwa [neg_neg])) h1 h2]
      rfl
  · refine corresponds_of (C32_ranks_any it v s first (some last)) (C32_ranks_any it' v' (s.image f) (-last) (some (-first))) ?_
    rintro _ _ ⟨t, rfl, ht⟩ ⟨t', rfl, ht'⟩
    have inU : ∀ x, (x ∈ s ∨ ∃ b ∈ s, h.Lt x b) ∨ (x ∈ s ∨ ∃ a ∈ s, h.Lt a x) → x ∈ U := by
      rintro x ((hx | ⟨b, hb, hx⟩) | (hx | ⟨a, ha, hx⟩))
      exacts [hs hx, φ.closed b (hs hb) x (.inr hx), hs hx, φ.closed a (hs ha) x (.inl hx)]
    have inU' : ∀ x, (x ∈ s.image f ∨ ∃ b ∈ s.image f, h'.Lt x b) ∨ (x ∈ s.image f ∨ ∃ a ∈ s.image f, h'.Lt a x) → x ∈ U.image f := by
      have hs' := Finset.image_subset_image (f := f) hs
      rintro x ((hx | ⟨b, hb, hx⟩) | (hx | ⟨a, ha, hx⟩))
      exacts [hs' hx, φ.closed' b (hs' hb) x (.inr hx), hs' hx, φ.closed' a (hs' ha) x (.inl hx)]
    have : t' = t.image f := by
      refine ψ.of_mem (fun x hx => ?_) (fun x hx => ?_) fun x hx' => ?_
      · rcases (ht x).1 hx with ⟨-, ⟨-, h1, -⟩ | ⟨-, h1, -⟩⟩
        exacts [inU x (.inl h1), inU x (.inr h1)]
      · rcases (ht' x).1 hx with ⟨-, ⟨-, h1, -⟩ | ⟨-, h1, -⟩⟩
        exacts [inU' x (.inl h1), inU' x (.inr h1)]
      · obtain ⟨u, hu, u1, u0⟩ := rankUp_exists v s x
        obtain ⟨d, hd, d1, d0⟩ := rankDown_exists v s x
        have eU : ∀ n, IsRankUp h s x n ↔ n = u := fun n => ⟨fun hn => hn.unique hu, fun hn => hn ▸ hu⟩
        have eD : ∀ n, IsRankDown h s x n ↔ n = d := fun n => ⟨fun hn => hn.unique hd, fun hn => hn ▸ hd⟩
        have eU' : ∀ n, IsRankUp h' (s.image f) (f x) n ↔ n = -d := fun n => by
          rw [← neg_neg n, φ.isRankUp v v' hs hx', eD]; omega
        have eD' : ∀ n, IsRankDown h' (s.image f) (f x) n ↔ n = -u := fun n => by
          rw [← neg_neg n, φ.isRankDown v v' hs hx', eU]; omega
        rw [ht, ht', ψ.mem_iff hx' hs, ψ.exists_iff v w hs (P' := fun e => h'.Lt (f x) e) (P := fun e => h.Lt e x) (fun e he => (φ.iff e (hs he) x hx').symm),
          ψ.exists_iff v w hs (P' := fun e => h'.Lt e (f x)) (P := fun e => h.Lt x e) (fun e he => (φ.iff x hx' e (hs he)).symm)]
        simp only [eU, eD, eU', eD', Option.getD_some, exists_eq_left]
        have key : (IsAntichainSet h.Lt s → (x ∈ s ∨ ∃ b ∈ s, h.Lt x b) → ¬∃ a ∈ s, h.Lt a x) ∧ (IsAntichainSet h.Lt s → (x ∈ s ∨ ∃ a ∈ s, h.Lt a x) → ¬∃ b ∈ s, h.Lt x b) := by
          constructor
          · rintro anti (hx | ⟨b, hb, hxb⟩) ⟨a, ha, hax⟩
            exacts [anti a ha x hx hax, anti a ha b hb (v.trans hax hxb)]
          · rintro anti (hx | ⟨a, ha, hax⟩) ⟨b, hb, hxb⟩
            exacts [anti x hx b hb hxb, anti a ha b hb (v.trans hax hxb)]
        clear eU eD eU' eD' hu hd inU inU' ht ht'
        generalize (IsAntichainSet h.Lt s) = Anti at *
        generalize (∃ a ∈ s, h.Lt a x) = B at *
        generalize (∃ b ∈ s, h.Lt x b) = A at *
        generalize (x ∈ s) = S at *
        by_cases hB : B <;> by_cases hA : A <;> by_cases hS : S <;> by_cases hN : Anti <;> simp only [hB, hA, hS, hN, not_true, not_false_eq_true, true_or, or_true, or_false, false_or, and_false, forall_const, true_and, and_true, IsEmpty.forall_iff, imp_false, false_and, or_self] at * <;> omega
    rw [this]; rfl

/-- **C110, paths.** `Paths` between corresponding events, with any length argument: the same exception, or the same paths in the opposite direction, in some order. -/
theorem C110_paths (it it' : Iter) {a b : EId} (ha : a ∈ U) (hb : b ∈ U) (arg : LenArg) :
    h.Corresponds h' (paths it a b arg) (paths it' (f b) (f a) arg)
      (fun x y => (∃ e, x = .error e ∧ y = .error e) ∨ ∃ ps qs, x = .ok ps ∧ y = .ok qs ∧ qs.Perm (ps.map (fun p => (p.map f).reverse))) := by
  have ψ := φ.iso v'
  have hfl : ∀ q, LinkPath h'.Lt (f b) (f a) q ↔ LinkPath h'.dual.Lt (f a) (f b) q.reverse := fun q => by
    rw [dual_Lt_eq v']
    have := linkPath_flip h'.Lt (f a) (f b) q.reverse
    rw [List.reverse_reverse] at this
    exact this.symm
  have back : ∀ q, LinkPath h'.Lt (f b) (f a) q → ∃ p, LinkPath h.Lt a b p ∧ q = (p.map f).reverse := fun q hq => by
    obtain ⟨p, hp, e⟩ := ψ.path_back ha hb ((hfl q).1 hq)
    exact ⟨p, hp, by rw [← e, List.reverse_reverse]⟩
  have forw : ∀ p, LinkPath h.Lt a b p → LinkPath h'.Lt (f b) (f a) (p.map f).reverse := fun p hp => by
    rw [hfl, List.reverse_reverse]; exact ψ.path ha hp
  have good : ∀ {R : List EId → Prop} {R' : List EId → Prop}, (∀ q, R q → LinkPath h.Lt a b q) → (∀ q, R' q → LinkPath h'.Lt (f b) (f a) q) →
      (∀ p, LinkPath h.Lt a b p → (R' (p.map f).reverse ↔ R p)) →
      h.AnswersWith (paths it a b arg) (fun r => ∃ ps : List (List EId), r = .ok ps ∧ ps.Nodup ∧ ∀ q, q ∈ ps ↔ R q) →
      h'.AnswersWith (paths it' (f b) (f a) arg) (fun r => ∃ ps : List (List EId), r = .ok ps ∧ ps.Nodup ∧ ∀ q, q ∈ ps ↔ R' q) →
      h.Corresponds h' (paths it a b arg) (paths it' (f b) (f a) arg)
        (fun x y => (∃ e, x = .error e ∧ y = .error e) ∨ ∃ ps qs, x = .ok ps ∧ y = .ok qs ∧ qs.Perm (ps.map (fun p => (p.map f).reverse))) := by
    intro R R' hR hR' hRR h1 h2
    refine corresponds_of h1 h2 ?_
    rintro _ _ ⟨ps, rfl, n1, m1⟩ ⟨qs, rfl, n2, m2⟩
    refine .inr ⟨ps, qs, rfl, rfl, (List.perm_ext_iff_of_nodup n2 ?_).2 fun q => ?_⟩
    · refine n1.map_on fun p hp q hq e => ?_
      have sp := ψ.path_sub ha (hR p ((m1 p).1 hp))
      have sq := ψ.path_sub ha (hR q ((m1 q).1 hq))
      exact map_injOn_list ψ.inj sp sq (List.reverse_injective e)
    · rw [m2, List.mem_map]
      constructor
      · intro hq
        obtain ⟨p, hp, rfl⟩ := back q (hR' q hq)
        exact ⟨p, (m1 p).2 ((hRR p hp).1 hq), rfl⟩
      · rintro ⟨p, hp, rfl⟩
        have hp' := (m1 p).1 hp
        exact (hRR p (hR p hp')).2 hp'
  have ext : ∀ (op : ℕ → ℕ → Prop) (p : List EId), LinkPath h.Lt a b p →
      ((LinkPath h'.Lt (f b) (f a) (p.map f).reverse ∧ ∀ q', LinkPath h'.Lt (f b) (f a) q' → op (p.map f).reverse.length q'.length) ↔ (LinkPath h.Lt a b p ∧ ∀ q', LinkPath h.Lt a b q' → op p.length q'.length)) := by
    intro op p hp
    constructor
    · rintro ⟨-, hq⟩
      refine ⟨hp, fun q' hq' => ?_⟩
      have := hq _ (forw _ hq')
      simpa using this
    · rintro ⟨-, hq⟩
      refine ⟨forw _ hp, fun q' hq' => ?_⟩
      obtain ⟨p', hp', rfl⟩ := back q' hq'
      simpa using hq _ hp'
  by_cases h1 : arg = .str "min"
  · subst h1
    exact good (fun q hq => hq.1) (fun q hq => hq.1) (ext (· ≤ ·)) (C34_min it v a b) (C34_min it' v' (f b) (f a))
  by_cases h2 : arg = .str "max"
  · subst h2
    exact good (fun q hq => hq.1) (fun q hq => hq.1) (ext (fun x y => y ≤ x)) (C34_max it v a b _ (.inl rfl)) (C34_max it' v' (f b) (f a) _ (.inl rfl))
  by_cases h3 : arg = .str "timegeo"
  · subst h3
    exact good (fun q hq => hq.1) (fun q hq => hq.1) (ext (fun x y => y ≤ x)) (C34_max it v a b _ (.inr rfl)) (C34_max it' v' (f b) (f a) _ (.inr rfl))
  cases hr : arg.range with
  | some r =>
    refine good (fun q hq => hq.1) (fun q hq => hq.1) (fun p hp => ?_) (C33_paths it v a b arg ⟨h1, h2, h3⟩ r.1 r.2 hr) (C33_paths it' v' (f b) (f a) arg ⟨h1, h2, h3⟩ r.1 r.2 hr)
    rw [List.length_reverse, List.length_map]
    exact and_congr_left fun _ => ⟨fun _ => hp, fun _ => forw _ hp⟩
  | none =>
    cases arg with
    | other => exact corresponds_of (C33_errors (h := h) it a b).1 (C33_errors (h := h') it' (f b) (f a)).1 fun _ _ e e' => .inl ⟨_, e, e'⟩
    | list l =>
      cases l with
      | nil => exact corresponds_of (C33_errors (h := h) it a b).2 (C33_errors (h := h') it' (f b) (f a)).2 fun _ _ e e' => .inl ⟨_, e, e'⟩
      | cons x xs => simp [LenArg.range] at hr
    | str s => simp [LenArg.range] at hr
    | int z => simp [LenArg.range] at hr

open Classical in
/-- **C110, link counts and matrices.** `isPath` and the link counts (without argument: of a causally closed causet) do not change; for a given list of events `PastMatrix` and `FutureMatrix` are exchanged, and likewise the link matrices. -/
theorem C110_matrices (it it' : Iter) (as as' : ArgSort) {C s : Finset EId} (hC : C ⊆ U) (hs : s ⊆ U) {l : List EId} (hl : ∀ x ∈ l, x ∈ U) :
    h.Corresponds h' (isPath it C (some s)) (isPath it' (C.image f) (some (s.image f))) (fun x y => y = x) ∧
    h.Corresponds h' (isPath it C none) (isPath it' (C.image f) none) (fun x y => y = x) ∧
    h.Corresponds h' (linkCount it C (some s)) (linkCount it' (C.image f) (some (s.image f))) (fun x y => y = x) ∧
    (Closed h.Lt C → h.Corresponds h' (linkCount it C none) (linkCount it' (C.image f) none) (fun x y => y = x)) ∧
    h.Corresponds h' (linkCountOf it s) (linkCountOf it' (s.image f)) (fun x y => y = x) ∧
    h'.pastMatrix it' as' (C.image f) (some (l.map f)) = h.futureMatrix it as C (some l) ∧ h'.futureMatrix it' as' (C.image f) (some (l.map f)) = h.pastMatrix it as C (some l) ∧
    h.Corresponds h' (linkFutureMatrix it as C (some l)) (linkPastMatrix it' as' (C.image f) (some (l.map f))) (fun x y => y = x) ∧
    h.Corresponds h' (linkPastMatrix it as C (some l)) (linkFutureMatrix it' as' (C.image f) (some (l.map f))) (fun x y => y = x) := by
  have ψ := φ.iso v'
  have w := dual_valid v'
  have pl_sub : ∀ a ∈ U, h.pastLinks a ⊆ U := fun a ha => (Finset.filter_subset _ _).trans (ψ.past_sub v w ha)
  have fl_sub : ∀ a ∈ U, h.futureLinks a ⊆ U := fun a ha => (Finset.filter_subset _ _).trans (ψ.future_sub v w ha)
  have ep : ∀ a ∈ U, h'.futureLinks (f a) = (h.pastLinks a).image f := fun a ha => by rw [← dual_pastLinks v']; exact ψ.pastLinks v w ha
  have ef : ∀ a ∈ U, h'.pastLinks (f a) = (h.futureLinks a).image f := fun a ha => by rw [← dual_futureLinks v']; exact ψ.futureLinks v w ha
  have hcov : ∀ {x y : EId}, x ∈ U → y ∈ U → (Covers h'.Lt (f y) (f x) ↔ Covers h.Lt x y) := fun {x y} hx hy => by
    rw [← ψ.covers hx hy, dual_Lt_eq v', covers_flip]
  have deg : ∀ a ∈ s, linkDeg h' (s.image f) (f a) = linkDeg h s a := by
    intro a ha
    unfold linkDeg
    rw [ef a (hs ha), ep a (hs ha), ← Finset.image_union, ψ.inter (Finset.union_subset (fl_sub a (hs ha)) (pl_sub a (hs ha))) hs,
      ψ.card (Finset.inter_subset_right.trans hs), Finset.union_comm]
  have cnt : ∀ t ⊆ U, ((t.image f ×ˢ t.image f).filter (fun p => Covers h'.Lt p.1 p.2)).card = ((t ×ˢ t).filter (fun p => Covers h.Lt p.1 p.2)).card := by
    intro t ht
    have : (t.image f ×ˢ t.image f).filter (fun p => Covers h'.Lt p.1 p.2) = ((t ×ˢ t).filter (fun p => Covers h.Lt p.1 p.2)).image (fun p => (f p.2, f p.1)) := by
      ext ⟨x, y⟩
      simp only [Finset.mem_filter, Finset.mem_product, Finset.mem_image, Prod.mk.injEq, Prod.exists]
      constructor
      · rintro ⟨⟨⟨p, hp, rfl⟩, ⟨q, hq, rfl⟩⟩, hc⟩
        exact ⟨q, p, ⟨⟨hq, hp⟩, (hcov (ht hq) (ht hp)).1 hc⟩, rfl, rfl⟩
      · rintro ⟨q, p, ⟨⟨hq, hp⟩, hc⟩, rfl, rfl⟩
        exact ⟨⟨⟨p, hp, rfl⟩, ⟨q, hq, rfl⟩⟩, (hcov (ht hq) (ht hp)).2 hc⟩
    rw [this, Finset.card_image_of_injOn]
    rintro ⟨a, b⟩ hab ⟨c, d⟩ hcd e
    simp only [Finset.coe_filter, Finset.mem_product, Set.mem_setOf_eq] at hab hcd
    simp only [Prod.mk.injEq] at e ⊢
    exact ⟨φ.inj a (ht hab.1.1) c (ht hcd.1.1) e.2, φ.inj b (ht hab.1.2) d (ht hcd.1.2) e.1⟩
  have m1 : ∀ (g : Heap) (vg : g.Valid) (k : List EId), g.Answers (linkPastMatrixOf k) (k.map (fun a => k.map (fun b => decide (b ∈ g.pastLinks a)))) := by
    intro g vg k
    unfold linkPastMatrixOf
    exact Answers.mapM k fun a _ => Answers.mapM k fun b _ => isPastLink_answers vg a b
  have lpm : ∀ (g : Heap) (vg : g.Valid) (jt : Iter) (js : ArgSort) (D : Finset EId) (k : List EId),
      g.Answers (linkPastMatrix jt js D (some k)) (.ok (k.map (fun a => k.map (fun b => decide (b ∈ g.pastLinks a))))) := by
    intro g vg jt js D k
    unfold linkPastMatrix
    exact Answers.bind (m1 g vg k) Answers.pure
  have lfm : ∀ (g : Heap) (vg : g.Valid) (jt : Iter) (js : ArgSort) (D : Finset EId) (k : List EId),
      g.Answers (linkFutureMatrix jt js D (some k)) (.ok (k.map (fun a => k.map (fun b => decide (a ∈ g.pastLinks b))))) := by
    intro g vg jt js D k
    unfold linkFutureMatrix
    refine Answers.bind (lpm g vg jt js D k) ?_
    simp only [matT_square]
    exact Answers.pure
  have cross : ∀ a ∈ U, ∀ b ∈ U, (f b ∈ h'.pastLinks (f a) ↔ a ∈ h.pastLinks b) := fun a ha b hb => by
    rw [mem_pastLinks v', mem_pastLinks v, hcov ha hb]
  refine ⟨?_, ?_, corresponds_answers (C38_linkCount_of it v C s) (C38_linkCount_of it' v' (C.image f) (s.image f)) (cnt s hs), fun hcl => ?_, ?_, ?_, ?_, ?_, ?_⟩
  · by_cases hc : 2 ≤ s.card
    · refine corresponds_answers (C22_isPath_degrees it v C s hc) (C22_isPath_degrees it' v' (C.image f) (s.image f) (by rw [ψ.card hs]; exact hc)) ?_
      rw [decide_eq_decide, Finset.forall_mem_image]
      refine and_congr (forall₂_congr fun a ha => by rw [deg a ha]) ?_
      rw [CausalIso.filter (p := fun e => linkDeg h s e = 1) (fun a ha => by rw [deg a ha]), ψ.card ((Finset.filter_subset _ _).trans hs)]
    · intro g g' _ _ _ _
      simp only [isPath, ψ.card hs, show s.card ≤ 1 by omega, if_true]
      rfl
  · intro g g' so lx so' lx'
    by_cases hc : C.card = 0
    · simp only [isPath, ψ.card hC, hc, if_true]; rfl
    · simp only [isPath, ψ.card hC, hc, if_false]
      have e1 : g.isChain it C none = h.isChain it C none := by simp only [isChain, coneCard, so.prec, so.succ]; congr!
      have e2 : g'.isChain it' (C.image f) none = h'.isChain it' (C.image f) none := by simp only [isChain, coneCard, so'.prec, so'.succ]; congr!
      have := ψ.isChain v w it it' hC none (by rintro _ ⟨⟩)
      rw [dual_isChain] at this
      change g'.isChain it' (C.image f) none = g.isChain it C none
      rw [e1, e2]; exact this
  · refine corresponds_answers (C38_linkCount it v C hcl) (C38_linkCount it' v' (C.image f) ?_) (cnt C hC)
    intro x hx y hy
    obtain ⟨a, ha, rfl⟩ := Finset.mem_image.1 hx
    obtain ⟨b, hb, rfl⟩ := Finset.mem_image.1 (φ.closed' _ (Finset.mem_image_of_mem f (hC ha)) y hy)
    refine Finset.mem_image_of_mem f (hcl a ha b ?_)
    unfold Related at hy ⊢
    rw [φ.iff a (hC ha) b hb, φ.iff b hb a (hC ha)]
    exact hy.symm
  · refine corresponds_answers (linkCountOf_answers it v s) (linkCountOf_answers it' v' (s.image f)) ?_
    rw [card_links v', card_links v]
    exact cnt s hs
  · simp only [pastMatrix, futureMatrix, pastMatrixOf, matT_square, List.map_map]
    refine congrArg _ (List.map_congr_left fun a ha => List.map_congr_left fun b hb => ?_)
    exact (C110_events φ v v' (hl a ha) (hl b hb)).1.2.2.1
  · simp only [pastMatrix, futureMatrix, pastMatrixOf, matT_square]
    rw [List.map_map]
    refine congrArg _ (List.map_congr_left fun a ha => ?_)
    rw [Function.comp, List.map_map]
    refine List.map_congr_left fun b hb => ?_
    exact (C110_events φ v v' (hl b hb) (hl a ha)).1.2.2.1
  · refine corresponds_answers (lfm h v it as C l) (lpm h' v' it' as' (C.image f) (l.map f)) (congrArg _ ?_)
    rw [List.map_map]
    refine List.map_congr_left fun a ha => ?_
    rw [Function.comp, List.map_map]
    refine List.map_congr_left fun b hb => ?_
    exact decide_eq_decide.2 (cross a (hl a ha) b (hl b hb))
  · refine corresponds_answers (lpm h v it as C l) (lfm h' v' it' as' (C.image f) (l.map f)) (congrArg _ ?_)
    rw [List.map_map]
    refine List.map_congr_left fun a ha => ?_
    rw [Function.comp, List.map_map]
    refine List.map_congr_left fun b hb => ?_
    exact decide_eq_decide.2 (cross b (hl b hb) a (hl a ha))

/-- **C110, central antichain.** `CentralAntichain` returns the corresponding events if the sets are enumerated correspondingly (its result depends on the order of enumeration). -/
theorem C110_central (it it' : Iter) {C : Finset EId} (hC : C ⊆ U) (hit : it'.ord [715] (C.image f) = (it.ord [715] C).map f) (e : Option EId) (he : ∀ x ∈ e, x ∈ U) :
    h'.centralAntichain it' (C.image f) (e.map f) = (h.centralAntichain it C e).image f := by
  have := C109_central (φ.iso v') v (dual_valid v') it it' hC hit e he
  rwa [dual_centralAntichain] at this

end

/-! ## Where time reversals come from -/

open Classical in
/-- **C110, constructors.** If two calls create events ordered by a relation and by its converse, the created causets are the time reverse of each other. -/
theorem C110_realises {h0 h0' : Heap} (v0 : h0.Valid) (v0' : h0'.Valid) {ι : Type} [Fintype ι] [Nonempty ι] {ids ids' : ι → EId} {R : ι → ι → Prop} (r : Realises h0 h ids R)
    (r' : Realises h0' h' ids' (fun i j => R j i)) : TimeReverse h.Lt h'.Lt (Finset.univ.image ids) (fun x => ids' (Function.invFun ids x)) := by
  have rd : Realises h0'.dual h'.dual ids' R := by
    refine ⟨dual_valid r'.valid, r'.injective, r'.fresh, r'.alive, fun i j => ?_, fun a b hab => ?_, fun a b ha hb => ?_, r'.old_alive, r'.old_label⟩
    · rw [dual_Lt r'.valid, r'.rel]
    · rw [dual_Lt r'.valid] at hab
      rw [dual_Lt v0']
      refine (r'.only b a hab).imp id ?_
      rintro ⟨i, j, h1, h2⟩
      exact ⟨j, i, h2, h1⟩
    · rw [dual_Lt r'.valid, dual_Lt v0']
      exact r'.old b a hb ha
  have ψ := C109_realises v0 (dual_valid v0') r rd
  have hL := dual_Lt_eq r'.valid
  exact ⟨ψ.inj, ψ.closed, by have := ψ.closed'; rwa [hL, closed_flip] at this, by have := ψ.iff; rwa [hL] at this⟩

/-- **C110, matrices.** `FromPastMatrix(M)` and `FromFutureMatrix(M)` (in whatever states they are called) create causets that are the time reverse of each other. -/
theorem C110_fromMatrix (it it' : Iter) (n : ℕ) (M : BMat) (hM : IsOrderMatrix (n + 1) M) {h0 h0' : Heap} (v0 : h0.Valid) (v0' : h0'.Valid) :
    ∃ (P F : Finset EId) (h h' : Heap) (f : EId → EId), fromPastMatrix it M h0 = (.ok P, h) ∧ fromFutureMatrix it' M h0' = (.ok F, h') ∧ h.Valid ∧ h'.Valid ∧
      TimeReverse h.Lt h'.Lt P f ∧ F = P.image f := by
  obtain ⟨ids, h, e, r, -⟩ := C14_fromPastMatrix it (n + 1) M hM h0 v0
  obtain ⟨ids', h', e', r', -⟩ := C14_fromFutureMatrix it' (n + 1) M hM h0' v0'
  refine ⟨_, _, h, h', _, e, e', r.valid, r'.valid, C110_realises v0 v0' r r', ?_⟩
  rw [Finset.image_image]
  refine Finset.image_congr fun i _ => ?_
  simp [Function.leftInverse_invFun r.injective i]

/-! ## Refutation, and a concrete case -/

/-- C110: the diamond is its own time reverse. -/
theorem C110_case : exDiamond.Valid ∧ TimeReverse exDiamond.Lt exDiamond.Lt {0, 1, 2, 3} (fun x => 3 - x) ∧ exDiamond.past 3 = {0, 1, 2} ∧ exDiamond.future (3 - 3) = ({0, 1, 2} : Finset EId).image (fun x => 3 - x) := by
  refine ⟨exDiamond_valid, ⟨by decide, exDiamond_closed, ?_, ?_⟩, by decide, by decide⟩
  · have : ({0, 1, 2, 3} : Finset EId).image (fun x => 3 - x) = {0, 1, 2, 3} := by decide
    rw [this]; exact exDiamond_closed
  · unfold Heap.Lt; decide +kernel

/-- **C110 refuted for `Layers` and `Ranks` with a bound 0.** In the diamond 0 < 1, 2 < 3, which is its own time reverse, `Layers({0, 1}, 0)` and `Ranks({0, 1}, 0)` return {1}, the future end of the set, and those of the reversed set {3, 2}
return {3}, again the future end, instead of {2}. -/
theorem C110_refuted : ¬∀ (h h' : Heap) (U s : Finset EId) (f : EId → EId), h.Valid → h'.Valid → TimeReverse h.Lt h'.Lt U f → s ⊆ U → ∀ (first last : ℤ),
    h'.layers Iter.asc (s.image f) (-last) (some (-first)) = (h.layers Iter.asc s first (some last)).image f ∧
      ((ranks Iter.asc (s.image f) (-last) (some (-first))).run h').1 = ((ranks Iter.asc s first (some last)).run h).1.map (fun t => t.image f) := by
  intro hx
  have := (hx exDiamond exDiamond {0, 1, 2, 3} {0, 1} (fun x => 3 - x) exDiamond_valid exDiamond_valid C110_case.2.1 (by decide) 0 0).1
  revert this
  decide +kernel

/-- The same for `Ranks` alone. -/
theorem C110_refuted_ranks : ((ranks Iter.asc {0, 1} 0 (some 0)).run exDiamond).1 = .ok {1} ∧ ((ranks Iter.asc {3, 2} (-0) (some (-0))).run exDiamond).1 = .ok {3} := by
  decide +kernel

end Causets
