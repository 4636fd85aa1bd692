import Verif.Props.Reach
import Mathlib.Tactic.IntervalCases

/-! # C01–C08, C64: events, their order and their link memory -/

namespace Causets

open Heap

/-! ## C01 -/

theorem linkPast_sameOrder (h : Heap) (e : EId) : h.SameOrder ((linkPast e).run h).2 := by
  simp only [StateT.run, linkPast]; split
  exacts [SameOrder.refl _, link_sameOrder _ _]
theorem linkFuture_sameOrder (h : Heap) (e : EId) : h.SameOrder ((linkFuture e).run h).2 := by
  simp only [StateT.run, linkFuture]; split
  exacts [SameOrder.refl _, link_sameOrder _ _]
theorem linkCone_sameOrder (h : Heap) (e : EId) : h.SameOrder ((linkCone e).run h).2 := by
  simp only [StateT.run, linkCone]; split
  exacts [SameOrder.refl _, link_sameOrder _ _]
theorem isPastLink_sameOrder (h : Heap) (a b : EId) : h.SameOrder ((isPastLink a b).run h).2 := by
  simp only [StateT.run, isPastLink]; split
  exacts [SameOrder.refl _, link_sameOrder _ _]
theorem isFutureLink_sameOrder (h : Heap) (a b : EId) :
    h.SameOrder ((isFutureLink a b).run h).2 := by
  simp only [StateT.run, isFutureLink]; split
  exacts [SameOrder.refl _, link_sameOrder _ _]

theorem causetAdd_sameOrder (it : Iter) (C s : Finset EId) (u : Bool) (h : Heap) :
    h.SameOrder (causetAdd it C s u h).2.2 := by
  unfold causetAdd; dsimp only; split
  exacts [unlinkAll_sameOrder _ _, SameOrder.refl _]
theorem causetDiscard_sameOrder (it : Iter) (C s : Finset EId) (u : Bool) (h : Heap) :
    h.SameOrder (causetDiscard it C s u h).2.2 := by
  unfold causetDiscard; dsimp only; split
  exacts [unlinkAll_sameOrder _ _, SameOrder.refl _]

/-- **C01.** After every history of API calls, `<` is a strict partial order on the events that exist, and
`Past` and `Future` mirror each other. -/
theorem C01_reachable_valid (h : Heap) (hr : Reachable h) :
    StrictOrd h.Lt ∧ (∀ a b, a ∈ h.past b ↔ b ∈ h.future a) ∧
    (∀ a b, a ∈ h.past b ↔ h.Lt a b) ∧ (∀ a b, h.Lt a b → h.Exists a ∧ h.Exists b) := by
  have key : h.Valid := by
    induction hr with
    | start => exact empty_valid
    | new h it l P F _ hP hF hs ih => exact newEvent_valid it h ih l P F hP hF hs
    | link h e _ ih => exact (link_sameOrder h e).valid ih
    | unlink h e _ ih => exact (unlink_sameOrder h e).valid ih
    | linkPast h e _ ih => exact (linkPast_sameOrder h e).valid ih
    | linkFuture h e _ ih => exact (linkFuture_sameOrder h e).valid ih
    | linkCone h e _ ih => exact (linkCone_sameOrder h e).valid ih
    | isPastLink h a b _ ih => exact (isPastLink_sameOrder h a b).valid ih
    | isFutureLink h a b _ ih => exact (isFutureLink_sameOrder h a b).valid ih
    | disjoin h it e _ ih =>
      by_cases hl : h.hasBeenLinked e = true
      · exact disjoin_valid it h ih e hl
      · have so := unlink_sameOrder h e
        have : ∃ x, (h.unlink e).1 = .error x := by
          unfold unlink
          cases h1 : h.lprec e with
          | none => exact ⟨_, rfl⟩
          | some s =>
            cases h2 : h.lsucc e with
            | none => simp [h2]
            | some t => simp [hasBeenLinked, h1, h2] at hl
        obtain ⟨x, hx⟩ := this
        unfold disjoin
        rcases hu : h.unlink e with ⟨r, g⟩
        rw [hu] at so hx
        dsimp only at hx
        subst hx
        exact so.valid ih
    | merge h it P F _ eP eF hP hF hd ih => exact merge_valid it P F h ih eP eF hP hF hd
    | causetLink h it C _ ih => exact (causetLink_sameOrder it C h).valid ih
    | causetUnlink h it C _ ih => exact (causetUnlink_sameOrder it C h).valid ih
    | add h it C s u _ ih => exact (causetAdd_sameOrder it C s u h).valid ih
    | discard h it C s u _ ih => exact (causetDiscard_sameOrder it C s u h).valid ih
  exact ⟨key.order, fun a b => by rw [key.past_eq, key.future_eq], key.past_eq, key.exists_of_lt⟩

theorem Reachable.valid {h : Heap} (hr : Reachable h) : h.Valid := by
  obtain ⟨h1, h2, h3, h4⟩ := C01_reachable_valid h hr
  exact ⟨h1, h3, fun a b => by rw [← h2, h3], h4⟩

theorem LinkReachable.reachable {h : Heap} (hr : LinkReachable h) : Reachable h := by
  induction hr with
  | start => exact .start
  | new h it l P F _ hP hF hs ih => exact .new h it l P F ih hP hF hs
  | link h e _ ih => exact .link h e ih
  | unlink h e _ ih => exact .unlink h e ih
  | linkPast h e _ ih => exact .linkPast h e ih
  | linkFuture h e _ ih => exact .linkFuture h e ih
  | linkCone h e _ ih => exact .linkCone h e ih
  | isPastLink h a b _ ih => exact .isPastLink h a b ih
  | isFutureLink h a b _ ih => exact .isFutureLink h a b ih
  | causetUnlink h it C _ ih => exact .causetUnlink h it C ih
  | add h it C s u _ ih => exact .add h it C s u ih
  | discard h it C s u _ ih => exact .discard h it C s u ih

theorem LinkReachable.valid {h : Heap} (hr : LinkReachable h) : h.Valid := hr.reachable.valid

theorem exChain3_valid : exChain3.Valid := exChain3_reach.valid
theorem exDiamond_valid : exDiamond.Valid := exDiamond_reach.valid

/-- The proviso of C01 is needed exactly: in a consistent state, creating an event between `P` and `F` gives
a strict partial order if and only if every given past event precedes every given future event. -/
theorem C01_proviso_necessary (it : Iter) (h : Heap) (v : h.Valid) (l : Option Label)
    (P F : List EId) (hP : ∀ p ∈ P, h.Exists p) (hF : ∀ f ∈ F, h.Exists f) :
    StrictOrd (h.newEvent it l P F).2.Lt ↔ ∀ p ∈ P, ∀ f ∈ F, h.Lt p f := by
  refine ⟨fun ho p hp f hf => ?_, fun hs => (newEvent_valid it h v l P F hP hF hs).order⟩
  have h1 := (newEvent_lt it h v l P F hP hF p h.next).2
    (Or.inr (Or.inl ⟨rfl, p, hp, Or.inl rfl⟩))
  have h2 := (newEvent_lt it h v l P F hP hF h.next f).2
    (Or.inr (Or.inr ⟨rfl, f, hf, Or.inl rfl⟩))
  have h3 := (newEvent_lt it h v l P F hP hF p f).1 (ho.trans _ _ _ h1 h2)
  rcases h3 with h3 | ⟨rfl, -⟩ | ⟨rfl, -⟩
  · exact h3
  · exact absurd (hF _ hf) (lt_irrefl _)
  · exact absurd (hP _ hp) (lt_irrefl _)

/-- C01 without the proviso is false: two unrelated events given as `past` and `future`. -/
theorem C01_refuted_without_proviso :
    ∃ h : Heap, Reachable h ∧ h.Exists 0 ∧ h.Exists 1 ∧
      ∀ it l, ¬ StrictOrd (h.newEvent it l [0] [1]).2.Lt := by
  refine ⟨((Heap.empty.newEvent Iter.asc none [] []).2.newEvent Iter.asc none [] []).2,
    .new _ _ _ _ _ (.new _ _ _ _ _ .start ?_ ?_ ?_) ?_ ?_ ?_, by decide, by decide, ?_⟩
  · simp
  · simp
  · simp
  · simp
  · simp
  · simp
  · intro it l
    rw [C01_proviso_necessary it _ ?_ l _ _ ?_ ?_]
    · simp only [List.mem_singleton, forall_eq]; decide
    · exact (Reachable.new _ _ _ _ _ (.new _ _ _ _ _ .start (by simp) (by simp) (by simp))
        (by simp) (by simp) (by simp)).valid
    · simp only [List.mem_singleton, forall_eq]; decide
    · simp only [List.mem_singleton, forall_eq]; decide

/-- a state with a new event squeezed between related events meets the hypotheses of C01 -/
example : ∃ h, Reachable h ∧ h.Lt 0 2 ∧ h.Lt 2 1 ∧ h.Lt 0 1 ∧ ¬ h.Lt 1 0 := by
  refine ⟨(((Heap.empty.newEvent Iter.asc none [] []).2.newEvent Iter.asc none [0] []).2.newEvent
    Iter.desc none [0] [1]).2, ?_, by decide, by decide, by decide, by decide⟩
  refine .new _ _ _ _ _ (.new _ _ _ _ _ (.new _ _ _ _ _ .start ?_ ?_ ?_) ?_ ?_ ?_) ?_ ?_ ?_ <;>
    simp [Heap.Exists, Heap.newEvent_fst] <;> decide

/-! ## C02 -/

/-- **C02.** The constructor adds exactly the requested relations, in every consistent state and for every
iteration order; the new event is a new object, no label of an old event changes. -/
theorem C02_constructor_relations (it : Iter) (h : Heap) (hr : Reachable h) (l : Option Label)
    (P F : List EId) (hP : ∀ p ∈ P, h.Exists p) (hF : ∀ f ∈ F, h.Exists f) :
    let e := (h.newEvent it l P F).1
    let h' := (h.newEvent it l P F).2
    ¬ h.Exists e ∧ (∀ x, h'.Exists x ↔ h.Exists x ∨ x = e) ∧
    h'.label e = l ∧ (∀ x, x ≠ e → h'.label x = h.label x) ∧
    (∀ a b, h'.Lt a b ↔ h.Lt a b ∨ (b = e ∧ ∃ p ∈ P, a = p ∨ h.Lt a p) ∨
      (a = e ∧ ∃ f ∈ F, b = f ∨ h.Lt f b)) := by
  have v := hr.valid
  obtain ⟨-, h2, h3, -, -, -, -⟩ := newEvent_fields it h v l P F hP hF
  refine ⟨lt_irrefl _, fun x => ?_, ?_, fun x hx => ?_, newEvent_lt it h v l P F hP hF⟩
  · simp only [Heap.Exists, h2, newEvent_fst]
    exact Nat.lt_succ_iff_lt_or_eq
  · exact (congrFun h3 h.next).trans (Function.update_self _ _ _)
  · rw [h3]; exact Function.update_of_ne hx _ _

example : ∀ p ∈ [1, 2], exDiamond.Exists p := by decide

/-! ## C03 -/

theorem LinkReachable.linksExact {h : Heap} (hr : LinkReachable h) : h.LinksExact := by
  induction hr with
  | start => exact empty_linksExact
  | new h it l P F hr hP hF hs ih => exact newEvent_linksExact it h hr.valid ih l P F hP hF hs
  | link h e hr ih => exact link_linksExact hr.valid ih e
  | unlink h e _ ih => exact unlink_linksExact ih e
  | linkPast h e hr ih => exact (linkPast_answers hr.valid e h (SameOrder.refl _) ih).2.2
  | linkFuture h e hr ih => exact (linkFuture_answers hr.valid e h (SameOrder.refl _) ih).2.2
  | linkCone h e hr ih => exact (linkCone_answers hr.valid e h (SameOrder.refl _) ih).2.2
  | isPastLink h a b hr ih => exact (isPastLink_answers hr.valid a b h (SameOrder.refl _) ih).2.2
  | isFutureLink h a b hr ih =>
    exact (isFutureLink_answers hr.valid a b h (SameOrder.refl _) ih).2.2
  | causetUnlink h it C _ ih => exact unlinkLinked_linksExact _ _ ih
  | add h it C s u _ ih =>
    unfold causetAdd; dsimp only; split
    exacts [unlinkAll_linksExact _ _ ih, ih]
  | discard h it C s u _ ih =>
    unfold causetDiscard; dsimp only; split
    exacts [unlinkAll_linksExact _ _ ih, ih]

theorem exChain3_links : exChain3.LinksExact := exChain3_reach.linksExact
theorem exDiamond_links : exDiamond.LinksExact := exDiamond_reach.linksExact

/-- **C03.** In every reachable state and whatever has been linked, unlinked or cached: the link queries
return the covering relation of the current order, and asking changes neither order nor labels. -/
theorem C03_link_queries (h : Heap) (hr : LinkReachable h) (e a : EId) :
    (∀ x, x ∈ ((linkPast e).run h).1 ↔ Covers h.Lt x e) ∧
    (∀ x, x ∈ ((linkFuture e).run h).1 ↔ Covers h.Lt e x) ∧
    (∀ x, x ∈ ((linkCone e).run h).1 ↔ Covers h.Lt x e ∨ Covers h.Lt e x) ∧
    (((isPastLink e a).run h).1 = true ↔ Covers h.Lt a e) ∧
    (((isFutureLink e a).run h).1 = true ↔ Covers h.Lt e a) ∧
    (((isLinkedTo e a).run h).1 = true ↔ Covers h.Lt a e ∨ Covers h.Lt e a) ∧
    ((linkPastCard e).run h).1 = ((linkPast e).run h).1.card ∧
    ((linkFutureCard e).run h).1 = ((linkFuture e).run h).1.card ∧
    h.SameOrder ((linkPast e).run h).2 ∧ h.SameOrder ((linkFuture e).run h).2 ∧
    h.SameOrder ((linkCone e).run h).2 ∧ h.SameOrder ((isPastLink e a).run h).2 ∧
    h.SameOrder ((isFutureLink e a).run h).2 ∧ h.SameOrder ((isLinkedTo e a).run h).2 ∧
    h.SameOrder ((linkPastCard e).run h).2 ∧ h.SameOrder ((linkFutureCard e).run h).2 := by
  have v := hr.valid
  have lx := hr.linksExact
  have so := SameOrder.refl h
  have q1 := linkPast_answers v e h so lx
  have q2 := linkFuture_answers v e h so lx
  have q3 := linkCone_answers v e h so lx
  have q4 := isPastLink_answers v e a h so lx
  have q5 := isFutureLink_answers v e a h so lx
  have q6 := isLinkedTo_answers v e a h so lx
  have q7 := linkPastCard_answers v e h so lx
  have q8 := linkFutureCard_answers v e h so lx
  refine ⟨fun x => ?_, fun x => ?_, fun x => ?_, ?_, ?_, ?_, ?_, ?_, q1.2.1, q2.2.1, q3.2.1,
    q4.2.1, q5.2.1, q6.2.1, q7.2.1, q8.2.1⟩
  · rw [q1.1, mem_pastLinks v]
  · rw [q2.1, mem_futureLinks v]
  · rw [q3.1, Finset.mem_union, mem_pastLinks v, mem_futureLinks v]
  · rw [q4.1, decide_eq_true_eq, mem_pastLinks v]
  · rw [q5.1, decide_eq_true_eq, mem_futureLinks v]
  · rw [q6.1, decide_eq_true_eq, Finset.mem_union, mem_pastLinks v, mem_futureLinks v]
  · rw [q7.1, q1.1]
  · rw [q8.1, q2.1]

/-- The answers do not depend on the caching history: two reachable states with the same order answer
alike. -/
theorem C03_independent_of_caching (h h' : Heap) (hr : LinkReachable h) (hr' : LinkReachable h')
    (so : h.SameOrder h') (e : EId) :
    ((linkPast e).run h).1 = ((linkPast e).run h').1 ∧
    ((linkFuture e).run h).1 = ((linkFuture e).run h').1 := by
  constructor
  · ext x
    rw [(C03_link_queries h hr e 0).1, (C03_link_queries h' hr' e 0).1, so.Lt]
  · ext x
    rw [(C03_link_queries h hr e 0).2.1, (C03_link_queries h' hr' e 0).2.1, so.Lt]

/-- a state in which an event was linked before its links changed: 0 was linked, then 1 and 2 were added -/
example : ∃ h, LinkReachable h ∧ h.hasBeenLinked 0 = true ∧ h.Lt 0 1 ∧ h.Lt 1 2 ∧
    h.lsucc 0 = some {1} := by
  refine ⟨((((Heap.empty.newEvent Iter.asc none [] []).2.link 0).newEvent Iter.asc none [0] []).2.newEvent
    Iter.asc none [1] []).2, ?_, by decide, by decide, by decide, by decide⟩
  refine .new _ _ _ _ _ (.new _ _ _ _ _ (.link _ _ (.new _ _ _ _ _ .start ?_ ?_ ?_)) ?_ ?_ ?_)
    ?_ ?_ ?_ <;> simp [Heap.Exists, Heap.newEvent_fst] <;> decide

/-! ## C04 -/

/-- **C04.** Exactly one of: same event, `a < b`, `b < a`, `a.isSpacelikeTo(b)`; and the other comparisons
agree with that. -/
theorem C04_trichotomy (h : Heap) (hr : Reachable h) (a b : EId) :
    ((a = b ∧ h.lt a b = false ∧ h.lt b a = false ∧ h.isSpacelikeTo a b = false) ∨
     (a ≠ b ∧ h.lt a b = true ∧ h.lt b a = false ∧ h.isSpacelikeTo a b = false) ∨
     (a ≠ b ∧ h.lt a b = false ∧ h.lt b a = true ∧ h.isSpacelikeTo a b = false) ∨
     (a ≠ b ∧ h.lt a b = false ∧ h.lt b a = false ∧ h.isSpacelikeTo a b = true)) ∧
    h.le a b = (decide (a = b) || h.lt a b) ∧ h.gt a b = h.lt b a ∧
    h.ge a b = (decide (a = b) || h.lt b a) ∧
    h.isCausalTo a b = !h.isSpacelikeTo a b ∧
    h.isSpacelikeTo a b = h.isSpacelikeTo b a := by
  have v := hr.valid
  have hs : ∀ a b, h.isSpacelikeTo a b = (decide (b ≠ a) && !h.lt b a && !h.lt a b) := by
    intro a b
    simp only [isSpacelikeTo, Heap.lt]
    congr 1
    · simp
    · rw [← decide_not]
      apply decide_eq_decide.2
      rw [v.mem_succ, v.mem_prec]
  have hab : h.lt a b = true → h.lt b a = false := by
    intro h1
    by_contra h2
    exact v.asymm (a := a) (b := b) h1 (by simpa [Heap.Lt] using h2)
  have haa : ∀ a, h.lt a a = false := by
    intro a
    by_contra h2
    exact v.irrefl a (by simpa [Heap.Lt] using h2)
  refine ⟨?_, rfl, rfl, rfl, ?_, ?_⟩
  · rw [hs]
    by_cases hne : a = b
    · subst hne; simp [haa]
    · have hne' : b ≠ a := fun hh => hne hh.symm
      cases h1 : h.lt a b <;> cases h2 : h.lt b a <;> simp_all
  · rw [hs, isCausalTo]
    have hle : h.le a b = (decide (a = b) || h.lt a b) := rfl
    have hgt : h.gt a b = h.lt b a := rfl
    rw [hle, hgt]
    by_cases hne : a = b
    · subst hne; simp
    · have hne' : b ≠ a := fun hh => hne hh.symm
      cases h1 : h.lt a b <;> cases h2 : h.lt b a <;> simp_all
  · rw [hs, hs]
    by_cases hne : a = b
    · subst hne; simp
    · have hne' : b ≠ a := fun hh => hne hh.symm
      cases h1 : h.lt a b <;> cases h2 : h.lt b a <;> simp_all

example : exDiamond.isSpacelikeTo 1 2 = true ∧ exDiamond.lt 0 3 = true := by decide

/-! ## C05 -/

/-- **C05.** -/
theorem C05_cardinalities (h : Heap) (hr : Reachable h) (e : EId) (s : Finset EId) :
    h.pastCard e = (h.past e).card ∧ h.futureCard e = (h.future e).card ∧
    h.coneCard e = (h.cone e).card ∧
    h.spacelikeCard e s = ((h.spacelike e s).card : ℤ) ∧
    (∀ x, x ∈ h.past e ↔ h.Lt x e) ∧ (∀ x, x ∈ h.future e ↔ h.Lt e x) ∧
    (∀ x, x ∈ h.cone e ↔ h.Lt x e ∨ x = e ∨ h.Lt e x) ∧
    (∀ x, x ∈ h.presentOrPast e ↔ h.Lt x e ∨ x = e) ∧
    (∀ x, x ∈ h.presentOrFuture e ↔ h.Lt e x ∨ x = e) ∧
    (∀ x, x ∈ h.spacelike e s ↔ x ∈ s ∧ h.isSpacelikeTo e x = true) := by
  have v := hr.valid
  have sp : ∀ x, x ∈ h.spacelike e s ↔ x ∈ s ∧ h.isSpacelikeTo e x = true := by
    intro x
    simp only [spacelike, cone, isSpacelikeTo, Finset.mem_sdiff, Finset.mem_union,
      Finset.mem_singleton, Bool.and_eq_true, decide_eq_true_eq, not_or, ne_eq]
    tauto
  refine ⟨rfl, rfl, ?_, ?_, fun x => v.past_eq x e, fun x => v.future_eq e x,
    fun x => v.mem_cone, fun x => ?_, fun x => ?_, sp⟩
  · have d1 : Disjoint (h.prec e) {e} := by
      rw [Finset.disjoint_singleton_right, v.mem_prec]; exact v.irrefl e
    have d2 : Disjoint (h.prec e ∪ {e}) (h.succ e) := by
      rw [Finset.disjoint_left]
      intro x hx hx2
      rw [v.mem_succ] at hx2
      rcases Finset.mem_union.1 hx with hx | hx
      · rw [v.mem_prec] at hx; exact v.asymm hx hx2
      · rw [Finset.mem_singleton] at hx; subst hx; exact v.irrefl _ hx2
    rw [coneCard, cone, Finset.card_union_of_disjoint d2, Finset.card_union_of_disjoint d1,
      Finset.card_singleton]
    omega
  · have e1 : e ∉ h.prec e := by rw [v.mem_prec]; exact v.irrefl e
    have e2 : e ∉ h.succ e := by rw [v.mem_succ]; exact v.irrefl e
    have hset : h.spacelike e s = ((s \ h.prec e) \ h.succ e).erase e := by
      ext x
      simp only [spacelike, cone, Finset.mem_sdiff, Finset.mem_union, Finset.mem_singleton,
        Finset.mem_erase]
      tauto
    rw [hset, spacelikeCard]
    split_ifs with he
    · have : e ∈ (s \ h.prec e) \ h.succ e := by simp [he, e1, e2]
      rw [Finset.card_erase_of_mem this]
      have := Finset.card_pos.2 ⟨e, this⟩
      omega
    · rw [Finset.erase_eq_of_notMem]
      simp [he]
  · simp [presentOrPast, v.mem_prec, or_comm]
  · simp [presentOrFuture, v.mem_succ, or_comm]

example : exDiamond.spacelikeCard 1 {0, 1, 2, 3} = 1 := by decide

/-! ## C06 -/

/-- **C06 is false.** `LinkConeCard` equals the size of `LinkCone` only for events without any link. -/
theorem C06_refuted (h : Heap) (hr : LinkReachable h) (e : EId) :
    ((linkConeCard e).run h).1 = ((linkCone e).run h).1.card ↔
      ((linkCone e).run h).1 = ∅ := by
  have v := hr.valid
  have lx := hr.linksExact
  have so := SameOrder.refl h
  rw [(linkConeCard_answers v e h so lx).1, (linkCone_answers v e h so lx).1]
  have hd : Disjoint (h.pastLinks e) (h.futureLinks e) := by
    rw [Finset.disjoint_left]
    intro x h1 h2
    rw [mem_pastLinks v] at h1
    rw [mem_futureLinks v] at h2
    exact v.asymm h1.1 h2.1
  rw [Finset.card_union_of_disjoint hd, Finset.union_eq_empty]
  constructor
  · intro heq
    have h1 := Nat.and_le_left (n := (h.pastLinks e).card) (m := (h.futureLinks e).card)
    have h2 := Nat.and_le_right (n := (h.pastLinks e).card) (m := (h.futureLinks e).card)
    constructor
    · rw [← Finset.card_eq_zero]; omega
    · rw [← Finset.card_eq_zero]; omega
  · rintro ⟨h1, h2⟩; simp [h1, h2]

/-- In the chain 0 < 1 < 2 the middle event has 2 links, but `LinkConeCard` says 1. -/
theorem C06_refuted_witness : LinkReachable exChain3 ∧
    ((linkConeCard 1).run exChain3).1 = 1 ∧ ((linkCone 1).run exChain3).1.card = 2 :=
  ⟨exChain3_reach, by decide, by decide⟩

/-- What `LinkConeCard` does return: the bitwise and of the two counts. -/
theorem C06_actual_partial (h : Heap) (hr : LinkReachable h) (e : EId) :
    ((linkConeCard e).run h).1 =
      ((linkPast e).run h).1.card &&& ((linkFuture e).run h).1.card := by
  have v := hr.valid
  have lx := hr.linksExact
  have so := SameOrder.refl h
  rw [(linkConeCard_answers v e h so lx).1, (linkPast_answers v e h so lx).1,
    (linkFuture_answers v e h so lx).1]

/-! ## C07 -/

/-- **C07.** `disjoin` on a linked event removes exactly the relations of that event, for every iteration
order; the order stays consistent. -/
theorem C07_disjoin (it : Iter) (h : Heap) (hr : Reachable h) (e : EId)
    (hl : h.hasBeenLinked e = true) :
    (h.disjoin it e).1 = .ok () ∧
    (∀ a b, (h.disjoin it e).2.Lt a b ↔ h.Lt a b ∧ a ≠ e ∧ b ≠ e) ∧
    (∀ x, (h.disjoin it e).2.Exists x ↔ h.Exists x) ∧
    (h.disjoin it e).2.label = h.label ∧
    (h.disjoin it e).2.past e = ∅ ∧ (h.disjoin it e).2.future e = ∅ ∧
    (h.disjoin it e).2.Valid := by
  have v := hr.valid
  obtain ⟨h1, h2, h3, h4, h5⟩ := disjoin_fields it h v e hl
  refine ⟨h1, fun a b => by rw [lt_iff, h4], fun x => by simp only [Heap.Exists, h2], h3, ?_, ?_,
    disjoin_valid it h v e hl⟩
  · ext x; simp [past, h4]
  · ext x; simp [future, h5]

/-- On an event without link memory `disjoin` raises AttributeError and does nothing. -/
theorem C07_disjoin_unlinked (it : Iter) (h : Heap) (e : EId) (hl : h.lprec e = none) :
    h.disjoin it e = (.error .attributeError, h) := by
  simp [disjoin, unlink, hl]

example : (exChain3.link 1).hasBeenLinked 1 = true ∧ exChain3.lprec 1 = none := by decide

/-! ## C08 -/

/-- **C08 is false, for every iteration order:** whenever a linked event `e` is the only event between two
linked events `a < e < b`, then after `e.disjoin()` the cached links disagree: exactly one of
"b in a's future links", "a in b's past links" holds, so the link memory is not exact. -/
theorem C08_refuted (it : Iter) (h : Heap) (hr : LinkReachable h) (a e b : EId)
    (hle : h.hasBeenLinked e = true) (hla : h.hasBeenLinked a = true)
    (hlb : h.hasBeenLinked b = true) (hae : Covers h.Lt a e) (heb : Covers h.Lt e b)
    (hbt : ∀ c, h.Lt a c → h.Lt c b → c = e) :
    (((isFutureLink a b).run (h.disjoin it e).2).1 = true ↔
      ((isPastLink b a).run (h.disjoin it e).2).1 = false) ∧
    Covers (h.disjoin it e).2.Lt a b ∧ ¬ (h.disjoin it e).2.LinksExact := by
  have v := hr.valid
  obtain ⟨s, t, h1, h2, h3⟩ := disjoin_links it h v hr.linksExact a e b hle hla hlb hae heb hbt
  have hcov : Covers (h.disjoin it e).2.Lt a b := by
    obtain ⟨-, -, -, h4, -⟩ := disjoin_fields it h v e hle
    have hlt : ∀ x y, (h.disjoin it e).2.Lt x y ↔ h.Lt x y ∧ x ≠ e ∧ y ≠ e :=
      fun x y => by rw [lt_iff, h4]
    refine ⟨(hlt a b).2 ⟨v.trans hae.1 heb.1, v.ne hae.1, (v.ne heb.1).symm⟩, fun c hc => ?_⟩
    rw [hlt, hlt] at hc
    exact hc.1.2.2 (hbt c hc.1.1 hc.2.1)
  refine ⟨?_, hcov, fun lx => ?_⟩
  · simp only [StateT.run, isFutureLink, isPastLink, h1, h2, decide_eq_true_eq, decide_eq_false_iff_not]
    exact h3
  · have h4 := (lx.future a s h1 b).2 hcov
    have h5 := (lx.past b t h2 a).2 hcov
    exact (h3.1 h4) h5

/-- the linked chain 0 < 1 < 2 meets the hypotheses of `C08_refuted` -/
theorem C08_refuted_witness : ∃ h, LinkReachable h ∧ h.hasBeenLinked 0 = true ∧
    h.hasBeenLinked 1 = true ∧ h.hasBeenLinked 2 = true ∧ Covers h.Lt 0 1 ∧ Covers h.Lt 1 2 ∧
    (∀ c, h.Lt 0 c → h.Lt c 2 → c = 1) ∧ ∀ it, ¬ (h.disjoin it 1).2.LinksExact := by
  have hr : LinkReachable (((exChain3.link 0).link 1).link 2) :=
    .link _ _ (.link _ _ (.link _ _ exChain3_reach))
  have v := hr.valid
  have hb : ∀ c, (((exChain3.link 0).link 1).link 2).Lt 0 c → c < 3 := fun c hc =>
    (v.exists_of_lt _ _ hc).2
  have h01 : Covers (((exChain3.link 0).link 1).link 2).Lt 0 1 := by
    rw [← mem_pastLinks v]; decide
  have h12 : Covers (((exChain3.link 0).link 1).link 2).Lt 1 2 := by
    rw [← mem_pastLinks v]; decide
  have hbt : ∀ c, (((exChain3.link 0).link 1).link 2).Lt 0 c →
      (((exChain3.link 0).link 1).link 2).Lt c 2 → c = 1 := by
    intro c h1 h2
    have h3 := hb c h1
    interval_cases c
    · exact absurd h1 (v.irrefl 0)
    · rfl
    · exact absurd h2 (v.irrefl 2)
  refine ⟨_, hr, by decide, by decide, by decide, h01, h12, hbt, fun it => ?_⟩
  exact (C08_refuted it _ hr 0 1 2 (by decide) (by decide) (by decide) h01 h12 hbt).2.2

/-- What holds of C08: if disjoining `e` creates no new link (some other event lies between every two
neighbours of `e`; in particular if `e` is minimal or maximal), the link memory of all events stays exact,
for every iteration order, so all link queries still answer the covering relation of the new order.
Missing: the case of a new link, where it is false (`C08_refuted`). -/
theorem C08_disjoin_partial (it : Iter) (h : Heap) (hr : LinkReachable h) (e : EId)
    (hl : h.hasBeenLinked e = true)
    (hh : ∀ a b, Covers h.Lt a e → Covers h.Lt e b → ∃ c, c ≠ e ∧ h.Lt a c ∧ h.Lt c b) :
    (h.disjoin it e).2.LinksExact ∧
    (∀ a x, x ∈ ((linkPast a).run (h.disjoin it e).2).1 ↔ Covers h.Lt x a ∧ x ≠ e ∧ a ≠ e) ∧
    (∀ a x, x ∈ ((linkFuture a).run (h.disjoin it e).2).1 ↔ Covers h.Lt a x ∧ a ≠ e ∧ x ≠ e) := by
  have v := hr.valid
  have lx' := disjoin_linksExact it h v hr.linksExact e hl hh
  have v' := disjoin_valid it h v e hl
  have hcov := disjoin_covers it h v e hl hh
  refine ⟨lx', fun a x => ?_, fun a x => ?_⟩
  · rw [(linkPast_answers v' a _ (SameOrder.refl _) lx').1, mem_pastLinks v', hcov]
  · rw [(linkFuture_answers v' a _ (SameOrder.refl _) lx').1, mem_futureLinks v', hcov]

/-- the two hypotheses in the linked chain 0 < 1 < 2 with `e` = 2 (a maximal event), and in the diamond
0 < 1, 2 < 3 with `e` = 1 (the event 2 remains between 0 and 3) -/
example : ∃ h, LinkReachable h ∧ h.hasBeenLinked 0 = true ∧ h.hasBeenLinked 3 = true ∧
    h.hasBeenLinked 1 = true ∧ Covers h.Lt 0 1 ∧ Covers h.Lt 1 3 ∧
    ∀ a b, Covers h.Lt a 1 → Covers h.Lt 1 b → ∃ c, c ≠ 1 ∧ h.Lt a c ∧ h.Lt c b := by
  have hr : LinkReachable (((exDiamond.link 0).link 1).link 3) :=
    .link _ _ (.link _ _ (.link _ _ exDiamond_reach))
  have v := hr.valid
  refine ⟨_, hr, by decide, by decide, by decide, ?_, ?_, fun a b ha hb => ⟨2, by decide, ?_⟩⟩
  · rw [← mem_pastLinks v]; decide
  · rw [← mem_pastLinks v]; decide
  · have h1 := (v.exists_of_lt _ _ ha.1).1
    have h2 := (v.exists_of_lt _ _ hb.1).2
    change a < 4 at h1
    change b < 4 at h2
    have h3 := ha.1
    have h4 := hb.1
    clear ha hb hr v
    revert h3 h4
    interval_cases a <;> interval_cases b <;> decide

/-! ## C64 -/

/-- **C64.** `copy` creates a new event with the same label, past, future and link memory; nothing about the
other events changes (in particular none of them is related to the copy). -/
theorem C64_copy (h : Heap) (e : EId) (he : h.Exists e) :
    let c := (h.copy e).1
    let h' := (h.copy e).2
    ¬ h.Exists c ∧ h'.next = h.next + 1 ∧
    h'.label c = h.label e ∧ h'.past c = h.past e ∧ h'.future c = h.future e ∧
    (h.hasBeenLinked e = true → h'.lprec c = h.lprec e ∧ h'.lsucc c = h.lsucc e) ∧
    (h.hasBeenLinked e = false → h'.hasBeenLinked c = false) ∧
    ∀ x, x ≠ c → h'.label x = h.label x ∧ h'.past x = h.past x ∧ h'.future x = h.future x ∧
      h'.lprec x = h.lprec x ∧ h'.lsucc x = h.lsucc x := by
  have hne : e ≠ h.next := Nat.ne_of_lt he
  refine ⟨lt_irrefl _, ?_, ?_, ?_, ?_, fun hl => ?_, fun hl => ?_, fun x hx => ?_⟩
  · simp only [copy]; split <;> rfl
  · simp only [copy]
    split <;> (simp [alloc]; cases h.label e with
      | none => rfl
      | some l => cases l <;> rfl)
  · simp only [copy]; split <;> simp [alloc, past]
  · simp only [copy]; split <;> simp [alloc, future]
  · simp [copy, hl]
  · simp only [copy, hl]; simp [hasBeenLinked, alloc]
  · have hx' : x ≠ h.next := hx
    simp only [copy]
    split <;> simp [alloc, past, future, hx']

example : exDiamond.Exists 3 := by decide

end Causets
