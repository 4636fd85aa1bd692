import Verif.Props.Events

/-! # C09, C19–C21, C23–C26, C63: cones, closure, chains, infinities, intervals, searching -/

namespace Causets

open Heap

variable {h : Heap}

/-! ## C24, C25: PastOf, FutureOf, ConeOf, SpacelikeTo -/

/-- **C24, pasts.** `PastOf(S)` is the set of events before some event of `S` (with the present: or in `S`). -/
theorem C24_pastOf (it : Iter) (v : h.Valid) (s : Finset EId) (includePresent : Bool) (x : EId) :
    x ∈ h.pastOf it s includePresent false ↔
      (includePresent = true ∧ x ∈ s) ∨ ∃ e ∈ s, h.Lt x e := by
  cases includePresent <;>
    simp [pastOf, foldl_union_mem, it.mem, past, v.mem_prec, or_comm]

/-- **C24, futures.** -/
theorem C24_futureOf (it : Iter) (v : h.Valid) (s : Finset EId) (includePresent : Bool) (x : EId) :
    x ∈ h.futureOf it s includePresent false ↔
      (includePresent = true ∧ x ∈ s) ∨ ∃ e ∈ s, h.Lt e x := by
  cases includePresent <;>
    simp [futureOf, foldl_union_mem, it.mem, future, v.mem_succ, or_comm]

/-- **C24, cones.** -/
theorem C24_coneOf (it : Iter) (v : h.Valid) (s : Finset EId) (includePresent : Bool) (x : EId) :
    x ∈ h.coneOf it s includePresent false ↔
      (includePresent = true ∧ x ∈ s) ∨ ∃ e ∈ s, Related h.Lt e x := by
  cases includePresent <;>
    simp [coneOf, foldl_union_mem, it.mem, future, past, v.mem_succ, v.mem_prec, or_comm, Related]

/-- **C24, spacelike.** `SpacelikeTo(S)` holds the events of the causet that are spacelike to every event
of `S`. -/
theorem C24_spacelikeTo (it : Iter) (v : h.Valid) (C s : Finset EId) (x : EId) :
    x ∈ h.spacelikeTo it C s ↔ x ∈ C ∧ ∀ e ∈ s, h.isSpacelikeTo e x = true := by
  simp only [spacelikeTo, Finset.mem_sdiff, C24_coneOf it v, true_and, isSpacelikeTo, Related,
    Bool.and_eq_true, decide_eq_true_eq, v.mem_prec, v.mem_succ, not_or, not_exists, not_and]
  refine and_congr_right fun _ => ⟨fun hx e he => ⟨⟨?_, (hx.2 e he).2⟩, (hx.2 e he).1⟩, fun hx => ⟨fun h1 => ?_, fun e he => ?_⟩⟩
  · rintro rfl; exact hx.1 he
  · exact (hx x h1).1.1 rfl
  · exact ⟨(hx e he).2, (hx e he).1.2⟩

/-- **C24, independence.** None of the results depends on the iteration order of the sets. -/
theorem C24_iteration_independent (it it' : Iter) (v : h.Valid) (C s : Finset EId) (b : Bool) :
    h.pastOf it s b false = h.pastOf it' s b false ∧
    h.futureOf it s b false = h.futureOf it' s b false ∧
    h.coneOf it s b false = h.coneOf it' s b false ∧
    h.spacelikeTo it C s = h.spacelikeTo it' C s := by
  refine ⟨?_, ?_, ?_, ?_⟩ <;> ext x
  · rw [C24_pastOf it v, C24_pastOf it' v]
  · rw [C24_futureOf it v, C24_futureOf it' v]
  · rw [C24_coneOf it v, C24_coneOf it' v]
  · rw [C24_spacelikeTo it v, C24_spacelikeTo it' v]

/-- a state and a set with non-trivial past, future and spacelike set -/
example : exDiamond.Valid ∧ exDiamond.pastOf Iter.asc {1} true false = {0, 1} ∧
    exDiamond.futureOf Iter.asc {1} false false = {3} ∧
    exDiamond.spacelikeTo Iter.asc {0, 1, 2, 3} {1} = {2} :=
  ⟨exDiamond_valid, by decide, by decide, by decide⟩

theorem foldl_inter_empty {α : Type} (f : α → Finset EId) (L : List α) :
    L.foldl (fun acc e => acc ∩ f e) ∅ = ∅ := by
  induction L with
  | nil => rfl
  | cons a L ih => simp [ih]

/-- **C25 is false.** With `intersect=True` the three functions return the empty set for every state and every
set of events. -/
theorem C25_refuted (it : Iter) (h : Heap) (s : Finset EId) (includePresent : Bool) :
    h.pastOf it s includePresent true = ∅ ∧ h.futureOf it s includePresent true = ∅ ∧
    h.coneOf it s includePresent true = ∅ := by
  cases includePresent <;> simp [pastOf, futureOf, coneOf, foldl_inter_empty]

/-- A witness for the failure: in the diamond 0 < 1, 2 < 3 event 0 lies in the past of both 1 and 2, but the
"common past" of {1, 2} is empty, for every iteration order; likewise for futures and cones. -/
theorem C25_refuted_witness : ∃ h, Reachable h ∧ h.Lt 0 1 ∧ h.Lt 0 2 ∧ h.Lt 1 3 ∧ h.Lt 2 3 ∧
    ∀ it, 0 ∉ h.pastOf it {1, 2} false true ∧ 3 ∉ h.futureOf it {1, 2} false true ∧
      0 ∉ h.coneOf it {1, 2} false true :=
  ⟨exDiamond, exDiamond_reach.reachable, by decide, by decide, by decide, by decide, fun it => by
    obtain ⟨h1, h2, h3⟩ := C25_refuted it exDiamond {1, 2} false
    rw [h1, h2, h3]; simp⟩

/-- What holds of C25: the answer is right exactly when there is no common past (future, cone) event. -/
theorem C25_intersect_partial (it : Iter) (h : Heap) (s : Finset EId) (includePresent : Bool) :
    ((∀ x, x ∈ h.pastOf it s includePresent true ↔
        ∀ e ∈ s, (includePresent = true ∧ x = e) ∨ h.Lt x e) ↔
      ¬ ∃ x, ∀ e ∈ s, (includePresent = true ∧ x = e) ∨ h.Lt x e) ∧
    ((∀ x, x ∈ h.futureOf it s includePresent true ↔
        ∀ e ∈ s, (includePresent = true ∧ x = e) ∨ h.Lt e x) ↔
      ¬ ∃ x, ∀ e ∈ s, (includePresent = true ∧ x = e) ∨ h.Lt e x) ∧
    ((∀ x, x ∈ h.coneOf it s includePresent true ↔
        ∀ e ∈ s, (includePresent = true ∧ x = e) ∨ Related h.Lt e x) ↔
      ¬ ∃ x, ∀ e ∈ s, (includePresent = true ∧ x = e) ∨ Related h.Lt e x) := by
  obtain ⟨h1, h2, h3⟩ := C25_refuted it h s includePresent
  rw [h1, h2, h3]
  simp only [Finset.notMem_empty, false_iff, not_exists, and_self]

/-- in the diamond 0 < 1, 2 < 3 the events 0 and 3 have no common past, so there the answer is right -/
example : ¬ ∃ x, ∀ e ∈ ({0, 3} : Finset EId), (false = true ∧ x = e) ∨ exDiamond.Lt x e := by
  rintro ⟨x, hx⟩
  have h0 := hx 0 (by simp)
  simp only [Bool.false_eq_true, false_and, false_or] at h0
  have := (exDiamond_valid.exists_of_lt _ _ h0).1
  change x < 4 at this
  interval_cases x <;> revert h0 <;> decide

/-! ## C09 -/

theorem subset_coneOf (it : Iter) (v : h.Valid) (s : Finset EId) : s ⊆ h.coneOf it s true false :=
  fun x hx => by rw [C24_coneOf it v]; exact Or.inl ⟨rfl, hx⟩

theorem initLoop_spec (it : Iter) (v : h.Valid) (S : Finset EId) :
    ∀ (fuel : ℕ) (s : Finset EId), S ⊆ s → (∀ e ∈ s, h.Exists e) → h.next < fuel + s.card →
      (∀ D : Finset EId, S ⊆ D → Closed h.Lt D → s ⊆ D) →
      ∃ C, h.initLoop it fuel s = .ok C ∧ S ⊆ C ∧ Closed h.Lt C ∧ (∀ e ∈ C, h.Exists e) ∧
        ∀ D : Finset EId, S ⊆ D → Closed h.Lt D → C ⊆ D := by
  intro fuel
  induction fuel with
  | zero =>
    intro s _ hE hf _
    exfalso
    have : s.card ≤ (Finset.range h.next).card :=
      Finset.card_le_card fun e he => Finset.mem_range.2 (hE e he)
    rw [Finset.card_range] at this
    omega
  | succ fuel ih =>
    intro s hS hE hf hD
    have hsub := subset_coneOf it v s
    have hE' : ∀ e ∈ h.coneOf it s true false, h.Exists e := by
      intro e he
      rw [C24_coneOf it v] at he
      rcases he with he | ⟨a, _, ha | ha⟩
      · exact hE e he.2
      · exact (v.exists_of_lt _ _ ha).2
      · exact (v.exists_of_lt _ _ ha).1
    have hD' : ∀ D : Finset EId, S ⊆ D → Closed h.Lt D → h.coneOf it s true false ⊆ D := by
      intro D h1 h2 x hx
      rw [C24_coneOf it v] at hx
      rcases hx with hx | ⟨a, ha, hr⟩
      · exact hD D h1 h2 hx.2
      · exact h2 a (hD D h1 h2 ha) x hr
    unfold initLoop
    by_cases hc : (h.coneOf it s true false).card = s.card
    · simp only [hc, if_true]
      have heq : h.coneOf it s true false = s := (Finset.eq_of_subset_of_card_le hsub hc.le).symm
      refine ⟨_, rfl, hS.trans hsub, ?_, hE', hD'⟩
      rw [heq]
      intro a ha b hab
      rw [← heq, C24_coneOf it v]
      exact Or.inr ⟨a, ha, hab⟩
    · simp only [hc, if_false]
      have := Finset.card_le_card hsub
      exact ih _ (hS.trans hsub) hE' (by omega) hD'

/-- **C09.** In every consistent state `Causet(S)` terminates and yields the least causally closed set
containing `S`, whatever the iteration order. -/
theorem C09_causet_closure (it : Iter) (v : h.Valid) (S : Finset EId) (hS : ∀ e ∈ S, h.Exists e) :
    ∃ C, h.causetInit it S = .ok C ∧ S ⊆ C ∧ Closed h.Lt C ∧
      ∀ D : Finset EId, S ⊆ D → Closed h.Lt D → C ⊆ D := by
  obtain ⟨C, h1, h2, h3, -, h4⟩ := initLoop_spec it v S (h.next + 1) S subset_rfl hS (by omega)
    (fun D hD _ => hD)
  exact ⟨C, h1, h2, h3, h4⟩

/-- If the set is already causally closed, the causet has exactly these events. -/
theorem C09_causet_of_closed (it : Iter) (v : h.Valid) (S : Finset EId) (hS : ∀ e ∈ S, h.Exists e)
    (hc : Closed h.Lt S) : h.causetInit it S = .ok S := by
  obtain ⟨C, h1, h2, _, h4⟩ := C09_causet_closure it v S hS
  rw [h1, Finset.Subset.antisymm (h4 S subset_rfl hc) h2]

/-- The result does not depend on the iteration order. -/
theorem C09_iteration_independent (it it' : Iter) (v : h.Valid) (S : Finset EId)
    (hS : ∀ e ∈ S, h.Exists e) : h.causetInit it S = h.causetInit it' S := by
  obtain ⟨C, h1, h2, h3, h4⟩ := C09_causet_closure it v S hS
  obtain ⟨C', h1', h2', h3', h4'⟩ := C09_causet_closure it' v S hS
  rw [h1, h1', Finset.Subset.antisymm (h4 C' h2' h3') (h4' C h2 h3)]

/-- the side event of a diamond generates the whole diamond, in more than one round -/
example : exDiamond.Valid ∧ (∀ e ∈ ({1} : Finset EId), exDiamond.Exists e) ∧
    (exDiamond.causetInit Iter.asc {1}).toOption = some {0, 1, 2, 3} :=
  ⟨exDiamond_valid, by decide, by decide⟩

/-! ## C26: intervals -/

theorem le_iff (h : Heap) (a b : EId) : h.le a b = true ↔ a = b ∨ h.Lt a b := by
  simp [le, lt_iff]

/-- **C26.** `Interval(a, b)` is {x : a ≤ x ≤ b}. -/
theorem C26_interval (v : h.Valid) (a b x : EId) :
    x ∈ h.interval a b true ↔ h.le a x = true ∧ h.le x b = true := by
  simp only [le_iff]
  unfold interval
  by_cases hab : h.le a b = true
  · by_cases he : a = b
    · subst he
      simp only [hab, Bool.not_true, Bool.false_eq_true, if_false, if_true, Finset.mem_singleton]
      constructor
      · rintro rfl; exact ⟨Or.inl rfl, Or.inl rfl⟩
      · rintro ⟨h1 | h1, h2 | h2⟩
        · exact h1.symm
        · exact h1.symm
        · exact h2
        · exact absurd (v.trans h1 h2) (v.irrefl _)
    · simp only [hab, he, Bool.not_true, Bool.false_eq_true, if_false, if_true, Finset.mem_inter,
        presentOrFuture, presentOrPast, Finset.mem_union, Finset.mem_singleton, v.mem_prec, v.mem_succ]
      rw [or_comm, @or_comm (h.Lt x b), @eq_comm _ x a]
  · simp only [hab, Bool.not_false, if_true, Finset.notMem_empty, false_iff, not_and, not_or]
    rw [le_iff, not_or] at hab
    rintro (rfl | h1)
    · exact hab
    · refine ⟨?_, fun h2 => hab.2 (v.trans h1 h2)⟩
      rintro rfl; exact hab.2 h1

/-- **C26, open interval.** For a ≠ b the interval without boundary is {x : a < x < b}. -/
theorem C26_interval_open (v : h.Valid) (a b : EId) (hab : a ≠ b) (x : EId) :
    x ∈ h.interval a b false ↔ h.Lt a x ∧ h.Lt x b := by
  unfold interval
  by_cases hle : h.le a b = true
  · simp [hle, hab, future, past, v.mem_succ, v.mem_prec]
  · simp only [hle, Bool.not_false, if_true, Finset.notMem_empty, false_iff, not_and]
    rw [le_iff, not_or] at hle
    exact fun h1 h2 => hle.2 (v.trans h1 h2)

/-- The code returns `{a}` for `a = b`, with both values of the flag (as its docstring says). -/
theorem C26_interval_self (a : EId) (b : Bool) : h.interval a a b = {a} := by
  simp [interval, le]

/-- **C26, empty unless a ≤ b.** -/
theorem C26_interval_empty (a b : EId) (f : Bool) (hn : ¬ h.le a b = true) :
    h.interval a b f = ∅ := by
  simp [interval, hn]

/-- **C26, cardinalities.** `IntervalCard` is the size of `Interval`, for both values of the flag. -/
theorem C26_intervalCard (v : h.Valid) (a b : EId) (f : Bool) :
    h.intervalCard a b f = (h.interval a b f).card := by
  unfold intervalCard interval
  by_cases hle : h.le a b = true
  · by_cases hab : a = b
    · subst hab; simp [hle]
    · have hlt : h.Lt a b := by
        rw [le_iff] at hle
        exact hle.resolve_left hab
      cases f
      · simp [hle, hab]
      · simp only [hle, hab, Bool.not_true, Bool.false_eq_true, if_false, if_true]
        have : h.presentOrFuture a ∩ h.presentOrPast b = insert a (insert b (h.future a ∩ h.past b)) := by
          ext x
          simp only [presentOrFuture, presentOrPast, future, past, Finset.mem_inter, Finset.mem_union,
            Finset.mem_singleton, Finset.mem_insert, v.mem_succ, v.mem_prec]
          constructor
          · rintro ⟨h1 | h1, h2 | h2⟩ <;> tauto
          · rintro (rfl | rfl | ⟨h1, h2⟩)
            · exact ⟨Or.inr rfl, Or.inl hlt⟩
            · exact ⟨Or.inl hlt, Or.inr rfl⟩
            · exact ⟨Or.inl h1, Or.inl h2⟩
        rw [this, Finset.card_insert_of_notMem, Finset.card_insert_of_notMem]
        · simp [past, v.mem_prec, v.irrefl]
        · simp [hab, future, v.mem_succ, v.irrefl]
  · simp [hle]

example : exDiamond.Valid ∧ (0 : EId) ≠ 3 ∧ exDiamond.interval 0 3 true = {0, 1, 2, 3} ∧
    exDiamond.intervalCard 0 3 false = 2 ∧ ¬ exDiamond.le 1 2 = true :=
  ⟨exDiamond_valid, by decide, by decide, by decide, by decide⟩

/-! ## C21: chains and antichains -/

/-- **C21, `isChain(S)`.** -/
theorem C21_isChain (it : Iter) (v : h.Valid) (C s : Finset EId) :
    h.isChain it C (some s) = true ↔ IsChainSet h.Lt s := by
  have key : ∀ e, (h.cone e ∩ s).card = s.card ↔ s ⊆ h.cone e := fun e => by
    constructor
    · intro hc
      rw [← Finset.eq_of_subset_of_card_le Finset.inter_subset_right hc.ge]
      exact Finset.inter_subset_left
    · intro hs; rw [Finset.inter_eq_right.2 hs]
  simp only [isChain, List.all_eq_true, it.mem, decide_eq_true_eq, key, IsChainSet]
  refine forall_congr' fun a => forall_congr' fun _ => forall_congr' fun b => ?_
  refine forall_congr' fun _ => ?_
  simp only [cone, Finset.mem_union, Finset.mem_singleton, v.mem_prec, v.mem_succ, Related]
  constructor
  · rintro ((h1 | h1) | h1) hne
    · exact Or.inr h1
    · exact absurd h1.symm hne
    · exact Or.inl h1
  · intro h1
    by_cases hab : a = b
    · exact Or.inl (Or.inr hab.symm)
    · rcases h1 hab with h2 | h2
      exacts [Or.inr h2, Or.inl (Or.inl h2)]

/-- **C21, `isAntichain(S)`.** -/
theorem C21_isAntichain (it : Iter) (v : h.Valid) (C s : Finset EId) :
    h.isAntichain it C (some s) = true ↔ IsAntichainSet h.Lt s := by
  simp only [isAntichain, List.all_eq_true, it.mem, decide_eq_true_eq, IsAntichainSet]
  constructor
  · intro hs a ha b hb hab
    obtain ⟨x, hx⟩ := Finset.card_eq_one.1 (hs a ha)
    have h1 : a ∈ h.cone a ∩ s := by simp [cone, ha]
    have h2 : b ∈ h.cone a ∩ s := by simp [cone, hb, v.mem_succ, hab]
    rw [hx, Finset.mem_singleton] at h1 h2
    exact v.irrefl a (by rw [h1] at hab ⊢; rwa [h2] at hab)
  · intro hs a ha
    rw [Finset.card_eq_one]
    refine ⟨a, Finset.eq_singleton_iff_unique_mem.2 ⟨by simp [cone, ha], fun x hx => ?_⟩⟩
    simp only [cone, Finset.mem_inter, Finset.mem_union, Finset.mem_singleton, v.mem_prec,
      v.mem_succ] at hx
    rcases hx with ⟨(h1 | h1) | h1, hx⟩
    · exact absurd h1 (hs x hx a ha)
    · exact h1
    · exact absurd h1 (hs a ha x hx)

theorem coneCard_eq (v : h.Valid) (e : EId) : h.coneCard e = (h.cone e).card := by
  have h1 : Disjoint (h.prec e ∪ {e}) (h.succ e) := by
    rw [Finset.disjoint_left]
    intro x hx hs
    rw [v.mem_succ] at hs
    simp only [Finset.mem_union, Finset.mem_singleton, v.mem_prec] at hx
    rcases hx with hx | rfl
    exacts [v.irrefl _ (v.trans hx hs), v.irrefl _ hs]
  have h2 : Disjoint (h.prec e) {e} := by
    simp [v.mem_prec, v.irrefl]
  rw [coneCard, cone, Finset.card_union_of_disjoint h1, Finset.card_union_of_disjoint h2]
  simp; omega

theorem cone_inter_of_closed (v : h.Valid) {C : Finset EId} (hc : Closed h.Lt C) {e : EId}
    (he : e ∈ C) : h.cone e ∩ C = h.cone e := by
  rw [Finset.inter_eq_left]
  intro x hx
  simp only [cone, Finset.mem_union, Finset.mem_singleton, v.mem_prec, v.mem_succ] at hx
  rcases hx with (h1 | rfl) | h1
  exacts [hc e he x (Or.inr h1), he, hc e he x (Or.inl h1)]

/-- **C21, whole causet.** Without argument `isChain` decides whether the causally closed causet is a chain. -/
theorem C21_isChain_whole (it : Iter) (v : h.Valid) (C : Finset EId) (hc : Closed h.Lt C) :
    h.isChain it C none = true ↔ IsChainSet h.Lt C := by
  rw [← C21_isChain it v C C]
  simp only [isChain, List.all_eq_true, it.mem, decide_eq_true_eq]
  refine forall_congr' fun a => forall_congr' fun ha => ?_
  rw [coneCard_eq v, cone_inter_of_closed v hc ha]

/-- **C21, whole causet.** -/
theorem C21_isAntichain_whole (it : Iter) (v : h.Valid) (C : Finset EId) (hc : Closed h.Lt C) :
    h.isAntichain it C none = true ↔ IsAntichainSet h.Lt C := by
  rw [← C21_isAntichain it v C C]
  simp only [isAntichain, List.all_eq_true, it.mem, decide_eq_true_eq]
  refine forall_congr' fun a => forall_congr' fun ha => ?_
  rw [coneCard_eq v, cone_inter_of_closed v hc ha]

/-- Without the closure hypothesis the argumentless version can fail: the upper two events of a 3-chain (left after
`discard`) form a chain, but `isChain()` says no. -/
theorem C21_whole_needs_closure : exChain3.Valid ∧ IsChainSet exChain3.Lt {1, 2} ∧
    ∀ it, exChain3.isChain it {1, 2} none = false := by
  refine ⟨exChain3_valid, ?_, fun it => ?_⟩
  · rw [← C21_isChain Iter.asc exChain3_valid ∅]; decide
  · rw [isChain, List.all_eq_false]
    exact ⟨1, (it.mem _ _ _).2 (by decide), by decide⟩

example : exChain3.Valid ∧ Closed exChain3.Lt {0, 1, 2} ∧
    exChain3.isChain Iter.asc {0, 1, 2} none = true ∧
    exDiamond.isChain Iter.asc {0, 1, 2, 3} none = false ∧
    exDiamond.isAntichain Iter.asc {0, 1, 2, 3} (some {1, 2}) = true := by
  refine ⟨exChain3_valid, ?_, by decide, by decide, by decide⟩
  intro a _ b hb
  have : exChain3.Exists b := by
    rcases hb with hb | hb
    exacts [(exChain3_valid.exists_of_lt _ _ hb).2, (exChain3_valid.exists_of_lt _ _ hb).1]
  have h3 : b < 3 := this
  interval_cases b <;> decide

/-! ## C23: infinities -/

/-- **C23, minimal events of a set.** -/
theorem C23_pastInfOf (v : h.Valid) (s : Finset EId) (x : EId) :
    x ∈ h.pastInfOf s ↔ x ∈ s ∧ ∀ y ∈ s, ¬ h.Lt y x := by
  rw [pastInfOf, Finset.mem_filter]
  simp only [Finset.eq_empty_iff_forall_notMem, Finset.mem_inter, past,
    v.mem_prec, not_and]
  exact and_congr_right fun _ => ⟨fun h1 y hy hl => h1 y hl hy, fun h1 y hl hy => h1 y hy hl⟩

/-- **C23, maximal events of a set.** -/
theorem C23_futureInfOf (v : h.Valid) (s : Finset EId) (x : EId) :
    x ∈ h.futureInfOf s ↔ x ∈ s ∧ ∀ y ∈ s, ¬ h.Lt x y := by
  rw [futureInfOf, Finset.mem_filter]
  simp only [Finset.eq_empty_iff_forall_notMem, Finset.mem_inter,
    future, v.mem_succ, not_and]
  exact and_congr_right fun _ => ⟨fun h1 y hy hl => h1 y hl hy, fun h1 y hl hy => h1 y hy hl⟩

/-- **C23, minimal events of the causet**: those without any past event. -/
theorem C23_pastInf (v : h.Valid) (C : Finset EId) (x : EId) :
    x ∈ h.pastInf C ↔ x ∈ C ∧ ∀ y, ¬ h.Lt y x := by
  rw [pastInf, Finset.mem_filter]
  simp only [ pastCard, Finset.card_eq_zero,
    Finset.eq_empty_iff_forall_notMem, v.mem_prec]

/-- **C23, maximal events of the causet**: those without any future event. -/
theorem C23_futureInf (v : h.Valid) (C : Finset EId) (x : EId) :
    x ∈ h.futureInf C ↔ x ∈ C ∧ ∀ y, ¬ h.Lt x y := by
  rw [futureInf, Finset.mem_filter]
  simp only [ futureCard, Finset.card_eq_zero,
    Finset.eq_empty_iff_forall_notMem, v.mem_succ]

/-- **C23.** On a causally closed causet both versions agree. -/
theorem C23_closed_agree (v : h.Valid) (C : Finset EId) (hc : Closed h.Lt C) :
    h.pastInf C = h.pastInfOf C ∧ h.futureInf C = h.futureInfOf C := by
  constructor <;> ext x
  · rw [C23_pastInf v, C23_pastInfOf v]
    exact and_congr_right fun hx => ⟨fun h1 y _ => h1 y,
      fun h1 y hl => h1 y (hc x hx y (Or.inr hl)) hl⟩
  · rw [C23_futureInf v, C23_futureInfOf v]
    exact and_congr_right fun hx => ⟨fun h1 y _ => h1 y,
      fun h1 y hl => h1 y (hc x hx y (Or.inl hl)) hl⟩

theorem exists_min_below (v : h.Valid) (s : Finset EId) : ∀ (n : ℕ) (x : EId), (h.prec x).card < n →
    x ∈ s → ∃ m ∈ s, (m = x ∨ h.Lt m x) ∧ ∀ y ∈ s, ¬ h.Lt y m := by
  intro n
  induction n with
  | zero => intro x hx; omega
  | succ n ih =>
    intro x hn hx
    by_cases hmin : ∀ y ∈ s, ¬ h.Lt y x
    · exact ⟨x, hx, Or.inl rfl, hmin⟩
    · push Not at hmin
      obtain ⟨y, hy, hl⟩ := hmin
      have hsub : h.prec y ⊂ h.prec x := by
        refine (Finset.ssubset_iff_of_subset fun z hz => ?_).2 ⟨y, v.mem_prec.2 hl, fun hc => ?_⟩
        · rw [v.mem_prec] at hz ⊢; exact v.trans hz hl
        · rw [v.mem_prec] at hc; exact v.irrefl _ hc
      obtain ⟨m, hm, h1, h2⟩ := ih y (by have := Finset.card_lt_card hsub; omega) hy
      refine ⟨m, hm, Or.inr ?_, h2⟩
      rcases h1 with rfl | h1
      exacts [hl, v.trans h1 hl]

theorem exists_max_above (v : h.Valid) (s : Finset EId) : ∀ (n : ℕ) (x : EId), (h.succ x).card < n →
    x ∈ s → ∃ m ∈ s, (m = x ∨ h.Lt x m) ∧ ∀ y ∈ s, ¬ h.Lt m y := by
  intro n
  induction n with
  | zero => intro x hx; omega
  | succ n ih =>
    intro x hn hx
    by_cases hmin : ∀ y ∈ s, ¬ h.Lt x y
    · exact ⟨x, hx, Or.inl rfl, hmin⟩
    · push Not at hmin
      obtain ⟨y, hy, hl⟩ := hmin
      have hsub : h.succ y ⊂ h.succ x := by
        refine (Finset.ssubset_iff_of_subset fun z hz => ?_).2 ⟨y, v.mem_succ.2 hl, fun hc => ?_⟩
        · rw [v.mem_succ] at hz ⊢; exact v.trans hl hz
        · rw [v.mem_succ] at hc; exact v.irrefl _ hc
      obtain ⟨m, hm, h1, h2⟩ := ih y (by have := Finset.card_lt_card hsub; omega) hy
      refine ⟨m, hm, Or.inr ?_, h2⟩
      rcases h1 with rfl | h1
      exacts [hl, v.trans hl h1]

/-- **C23, every event lies above a minimal one and below a maximal one**; hence the infinities of a non-empty
set are non-empty. -/
theorem C23_bounding (v : h.Valid) (s : Finset EId) :
    (∀ x ∈ s, ∃ m ∈ h.pastInfOf s, h.le m x = true) ∧
    (∀ x ∈ s, ∃ m ∈ h.futureInfOf s, h.le x m = true) ∧
    (s.Nonempty → (h.pastInfOf s).Nonempty ∧ (h.futureInfOf s).Nonempty) := by
  have h1 : ∀ x ∈ s, ∃ m ∈ h.pastInfOf s, h.le m x = true := fun x hx => by
    obtain ⟨m, hm, h1, h2⟩ := exists_min_below v s _ x (Nat.lt_succ_self _) hx
    exact ⟨m, (C23_pastInfOf v s m).2 ⟨hm, h2⟩, (le_iff h m x).2 h1⟩
  have h2 : ∀ x ∈ s, ∃ m ∈ h.futureInfOf s, h.le x m = true := fun x hx => by
    obtain ⟨m, hm, h1, h2⟩ := exists_max_above v s _ x (Nat.lt_succ_self _) hx
    exact ⟨m, (C23_futureInfOf v s m).2 ⟨hm, h2⟩, (le_iff h x m).2 (h1.imp_left Eq.symm)⟩
  refine ⟨h1, h2, fun ⟨x, hx⟩ => ?_⟩
  obtain ⟨m, hm, _⟩ := h1 x hx
  obtain ⟨n, hn, _⟩ := h2 x hx
  exact ⟨⟨m, hm⟩, ⟨n, hn⟩⟩

/-- **C23, antichains.** -/
theorem C23_antichains (v : h.Valid) (s : Finset EId) :
    IsAntichainSet h.Lt (h.pastInfOf s) ∧ IsAntichainSet h.Lt (h.futureInfOf s) ∧
    IsAntichainSet h.Lt (h.pastInf s) ∧ IsAntichainSet h.Lt (h.futureInf s) := by
  refine ⟨?_, ?_, ?_, ?_⟩ <;> intro a ha b hb
  · rw [C23_pastInfOf v] at ha hb; exact hb.2 a ha.1
  · rw [C23_futureInfOf v] at ha hb; exact ha.2 b hb.1
  · rw [C23_pastInf v] at ha hb; exact hb.2 a
  · rw [C23_futureInf v] at ha hb; exact ha.2 b

theorem length_filter_ord (it : Iter) (c : List ℕ) (s : Finset EId) (p : EId → Prop)
    [DecidablePred p] : ((it.ord c s).filter (fun e => p e)).length = (s.filter p).card := by
  rw [← List.toFinset_card_of_nodup ((it.nodup c s).filter _)]
  congr 1
  ext x; simp [it.mem]

/-- **C23, cardinalities.** -/
theorem C23_cards (it : Iter) (h : Heap) (s : Finset EId) :
    h.pastInfCard it s = (h.pastInf s).card ∧ h.futureInfCard it s = (h.futureInf s).card ∧
    h.pastInfCardOf it s = (h.pastInfOf s).card ∧ h.futureInfCardOf it s = (h.futureInfOf s).card :=
  ⟨length_filter_ord .., length_filter_ord .., length_filter_ord .., length_filter_ord ..⟩

example : exDiamond.Valid ∧ exDiamond.pastInfOf {1, 2, 3} = {1, 2} ∧
    exDiamond.futureInf {0, 1, 2, 3} = {3} := ⟨exDiamond_valid, by decide, by decide⟩

/-! ## C63: searching -/

/-- **C63, find.** -/
theorem C63_find (it : Iter) (C : Finset EId) (l : Option Label) (h : Heap) :
    (∀ e, find it C l h = .ok e → e ∈ C ∧ h.label e = l) ∧
    ((∃ e ∈ C, h.label e = l) → ∃ e, find it C l h = .ok e) ∧
    ((∀ e ∈ C, h.label e ≠ l) → find it C l h = .error .valueError) := by
  unfold find
  cases hf : (it.ord [367] C).find? (fun e => decide (h.label e = l)) with
  | some x =>
    have h1 := List.mem_of_find?_eq_some hf
    have h2 := List.find?_some hf
    rw [it.mem] at h1
    simp only [decide_eq_true_eq] at h2
    refine ⟨fun e he => ?_, fun _ => ⟨x, rfl⟩, fun hn => absurd h2 (hn x h1)⟩
    cases he; exact ⟨h1, h2⟩
  | none =>
    rw [List.find?_eq_none] at hf
    refine ⟨fun e he => by simp at he, fun ⟨e, he, hl⟩ => ?_, fun _ => rfl⟩
    exact absurd (decide_eq_true hl) (hf e ((it.mem _ _ _).2 he))

/-- **C63, findAll and findAny.** -/
theorem C63_findAll_findAny (it : Iter) (C : Finset EId) (ls : List (Option Label)) (h : Heap) :
    (∀ e, e ∈ findAll C ls h ↔ e ∈ C ∧ h.label e ∈ ls) ∧
    (findAny it C ls h).Nodup ∧ (∀ e, e ∈ findAny it C ls h ↔ e ∈ C ∧ h.label e ∈ ls) := by
  refine ⟨fun e => by simp [findAll], (it.nodup _ _).filter _, fun e => by simp [findAny, it.mem]⟩

example : find Iter.asc {0, 1, 2, 3} (some (.int 3)) exDiamond = .ok 2 ∧
    find Iter.asc {0, 1, 3} (some (.int 3)) exDiamond = .error .valueError := by decide

/-! ## C20: set operators -/

/-- **C20, all operators except the reflected minus.** -/
theorem C20_operators_partial (C D : Finset EId) (x : EId) :
    (x ∈ opSub C D ↔ x ∈ C ∧ x ∉ D) ∧ (x ∈ opOr C D ↔ x ∈ C ∨ x ∈ D) ∧
    (x ∈ opRor C D ↔ x ∈ D ∨ x ∈ C) ∧ (x ∈ opAnd C D ↔ x ∈ C ∧ x ∈ D) ∧
    (x ∈ opRand C D ↔ x ∈ D ∧ x ∈ C) ∧ (x ∈ opXor C D ↔ (x ∈ C ∧ x ∉ D) ∨ (x ∈ D ∧ x ∉ C)) ∧
    (x ∈ opRxor C D ↔ (x ∈ D ∧ x ∉ C) ∨ (x ∈ C ∧ x ∉ D)) ∧
    (x ∈ setDifference C D ↔ x ∈ C ∧ x ∉ D) ∧ (x ∈ setIntersection C D ↔ x ∈ C ∧ x ∈ D) ∧
    (x ∈ setSymmetricDifference C D ↔ (x ∈ C ∧ x ∉ D) ∨ (x ∈ D ∧ x ∉ C)) ∧
    (x ∈ setUnion C D ↔ x ∈ C ∨ x ∈ D) ∧ (causetContains C x = true ↔ x ∈ C) := by
  simp [opSub, opOr, opRor, opAnd, opRand, opXor, opRxor, setDifference, setIntersection,
    setSymmetricDifference, setUnion, causetContains, Finset.mem_symmDiff, and_comm, or_comm]

/-- **C20 is false for the reflected minus**: `D - C` returns the events of `C` that are not in `D`, so it is wrong
exactly when the two sets differ. -/
theorem C20_refuted (C D : Finset EId) : opRsub C D = C \ D ∧ (opRsub C D = D \ C ↔ C = D) := by
  refine ⟨rfl, fun h1 => ?_, fun h1 => by rw [opRsub, h1]⟩
  have h2 : C \ D = D \ C := h1
  ext x
  have h3 := Finset.ext_iff.1 h2 x
  simp only [Finset.mem_sdiff] at h3
  tauto

example : opRsub {1} {1, 2} ≠ ({1, 2} \ {1} : Finset EId) := by decide

/-! ## C19: add and discard -/

/-- **C19, Card.** `Card` is the number of events: 0 for the empty causet, the length of every iteration over the causet, larger by one for each event that `add` adds to the causet
and smaller by one for each event of the causet that `discard` removes. -/
theorem C19_card (it : Iter) (c : List ℕ) (C s : Finset EId) (u : Bool) (h : Heap) :
    causetCard ∅ = 0 ∧ causetCard C = (it.ord c C).length ∧ (∀ l : List EId, l.Nodup → causetCard l.toFinset = l.length) ∧
    causetCard (causetAdd it C s u h).1 = causetCard C + (s.filter (· ∉ C)).card ∧
    causetCard (causetDiscard it C s u h).1 + (s.filter (· ∈ C)).card = causetCard C := by
  refine ⟨rfl, ?_, fun l hl => List.toFinset_card_of_nodup hl, ?_, ?_⟩
  · have : (it.ord c C).toFinset = C := by ext x; simp [it.mem]
    rw [← List.toFinset_card_of_nodup (it.nodup c C), this]; rfl
  · show (C ∪ s).card = C.card + _
    rw [← Finset.card_union_of_disjoint]
    · congr 1; ext x; simp only [Finset.mem_union, Finset.mem_filter]; tauto
    · rw [Finset.disjoint_left]; intro x hx hy; exact (Finset.mem_filter.1 hy).2 hx
  · show (C \ s).card + _ = C.card
    rw [← Finset.card_union_of_disjoint]
    · congr 1; ext x; simp only [Finset.mem_union, Finset.mem_sdiff, Finset.mem_filter]; tauto
    · rw [Finset.disjoint_left]; intro x hx hy; exact (Finset.mem_sdiff.1 hx).2 (Finset.mem_filter.1 hy).1

/-- **C19, without unlinking.** -/
theorem C19_add_discard (it : Iter) (C s : Finset EId) (h : Heap) :
    causetAdd it C s false h = (C ∪ s, .ok (), h) ∧
    causetDiscard it C s false h = (C \ s, .ok (), h) := ⟨rfl, rfl⟩

theorem unlinkAll_ok : ∀ (l : List EId) (h : Heap), l.Nodup →
    (∀ e ∈ l, h.hasBeenLinked e = true) →
    (unlinkAll l h).1 = .ok () ∧ h.SameOrder (unlinkAll l h).2 ∧
    (∀ e, (unlinkAll l h).2.lprec e = if e ∈ l then none else h.lprec e) ∧
    (∀ e, (unlinkAll l h).2.lsucc e = if e ∈ l then none else h.lsucc e) := by
  intro l
  induction l with
  | nil => intro h _ _; exact ⟨rfl, SameOrder.refl _, fun e => by simp [unlinkAll], fun e => by simp [unlinkAll]⟩
  | cons a l ih =>
    intro h hn hl
    have ha := hl a (by simp)
    simp only [hasBeenLinked, Bool.and_eq_true, Option.isSome_iff_exists] at ha
    obtain ⟨⟨s, hs⟩, ⟨t, ht⟩⟩ := ha
    have hu : h.unlink a = (.ok (), { h with lprec := Function.update h.lprec a none
                                             lsucc := Function.update h.lsucc a none }) := by
      simp [unlink, hs, ht]
    rw [List.nodup_cons] at hn
    have := ih { h with lprec := Function.update h.lprec a none
                        lsucc := Function.update h.lsucc a none } hn.2 (fun e he => by
      have hea : e ≠ a := fun hc => hn.1 (hc ▸ he)
      simpa [hasBeenLinked, hea] using hl e (by simp [he]))
    obtain ⟨h1, h2, h3, h4⟩ := this
    simp only [unlinkAll, hu]
    refine ⟨h1, ⟨h2.next, h2.label, h2.prec, h2.succ⟩, fun e => ?_, fun e => ?_⟩
    · rw [h3 e]
      by_cases hea : e = a
      · subst hea; simp
      · simp [hea]
    · rw [h4 e]
      by_cases hea : e = a
      · subst hea; simp
      · simp [hea]

theorem unlinkAll_err : ∀ (l : List EId) (h : Heap), l.Nodup →
    (∃ e ∈ l, h.hasBeenLinked e = false) → (unlinkAll l h).1 = .error .attributeError := by
  intro l
  induction l with
  | nil => intro h _ ⟨e, he, _⟩; simp at he
  | cons a l ih =>
    intro h hn ⟨e, he, hu⟩
    rw [List.nodup_cons] at hn
    by_cases ha : h.hasBeenLinked a = true
    · have hea : e ≠ a := by rintro rfl; simp [ha] at hu
      have hel : e ∈ l := by simpa [hea] using he
      have ha' := ha
      simp only [hasBeenLinked, Bool.and_eq_true, Option.isSome_iff_exists] at ha'
      obtain ⟨⟨s, hs⟩, ⟨t, ht⟩⟩ := ha'
      have huu : h.unlink a = (.ok (), { h with lprec := Function.update h.lprec a none
                                                lsucc := Function.update h.lsucc a none }) := by
        simp [unlink, hs, ht]
      simp only [unlinkAll, huu]
      exact ih _ hn.2 ⟨e, hel, by simpa [hasBeenLinked, hea] using hu⟩
    · simp only [unlinkAll]
      simp only [hasBeenLinked, Bool.and_eq_true, not_and, Option.isSome_iff_ne_none, ne_eq] at ha
      cases hs : h.lprec a with
      | none => simp [unlink, hs]
      | some s =>
        have : h.lsucc a = none := by
          have := ha (by simp [hs])
          simpa using this
        simp [unlink, hs, this]

/-- **C19, with unlinking.** `add(S, unlink=True)` and `discard(S, unlink=True)` change the event set to the union and
difference in any case; if every event of the resulting causet has link memory they drop exactly that
memory and change nothing else; otherwise they raise AttributeError. -/
theorem C19_add_discard_unlink (it : Iter) (C s : Finset EId) (h : Heap) :
    (causetAdd it C s true h).1 = C ∪ s ∧ (causetDiscard it C s true h).1 = C \ s ∧
    (∀ D r, (D = C ∪ s ∧ r = (causetAdd it C s true h).2) ∨
        (D = C \ s ∧ r = (causetDiscard it C s true h).2) →
      ((∀ e ∈ D, h.hasBeenLinked e = true) → r.1 = .ok () ∧ h.SameOrder r.2 ∧
        ∀ e, (e ∈ D → r.2.lprec e = none ∧ r.2.lsucc e = none) ∧
          (e ∉ D → r.2.lprec e = h.lprec e ∧ r.2.lsucc e = h.lsucc e)) ∧
      ((∃ e ∈ D, h.hasBeenLinked e = false) → r.1 = .error .attributeError)) := by
  have key : ∀ (c : List ℕ) (D : Finset EId),
      ((∀ e ∈ D, h.hasBeenLinked e = true) → (unlinkAll (it.ord c D) h).1 = .ok () ∧
        h.SameOrder (unlinkAll (it.ord c D) h).2 ∧
        ∀ e, (e ∈ D → (unlinkAll (it.ord c D) h).2.lprec e = none ∧
            (unlinkAll (it.ord c D) h).2.lsucc e = none) ∧
          (e ∉ D → (unlinkAll (it.ord c D) h).2.lprec e = h.lprec e ∧
            (unlinkAll (it.ord c D) h).2.lsucc e = h.lsucc e)) ∧
      ((∃ e ∈ D, h.hasBeenLinked e = false) →
        (unlinkAll (it.ord c D) h).1 = .error .attributeError) := by
    intro c D
    refine ⟨fun hl => ?_, fun ⟨e, he, hu⟩ => ?_⟩
    · obtain ⟨h1, h2, h3, h4⟩ := unlinkAll_ok (it.ord c D) h (it.nodup _ _)
        (fun e he => hl e ((it.mem _ _ _).1 he))
      refine ⟨h1, h2, fun e => ⟨fun he => ?_, fun he => ?_⟩⟩
      · rw [h3, h4]; simp [it.mem, he]
      · rw [h3, h4]; simp [it.mem, he]
    · exact unlinkAll_err _ _ (it.nodup _ _) ⟨e, (it.mem _ _ _).2 he, hu⟩
  refine ⟨rfl, rfl, ?_⟩
  rintro D r (⟨rfl, rfl⟩ | ⟨rfl, rfl⟩)
  · exact key _ _
  · exact key _ _

/-- both cases occur: freshly created events have no link memory, so `add(.., unlink=True)` raises; after
`link()` it succeeds -/
example : (causetAdd Iter.asc {0} {1, 2} true exChain3).2.1 = .error .attributeError ∧
    (causetAdd Iter.asc {0} {1, 2} true (((exChain3.link 0).link 1).link 2)).2.1 = .ok () := by
  decide

end Causets
