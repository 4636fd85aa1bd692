import Verif.Lemmas.NewEvent
import Mathlib.Algebra.BigOperators.Group.Finset.Basic

/-! # Queries on the link memory: a small logic for `AnswersWith` -/

namespace Causets

namespace Heap

variable {h0 : Heap} {α β : Type}

theorem AnswersWith.bind {m : StateM Heap α} {f : α → StateM Heap β} {P : α → Prop}
    {Q : β → Prop} (hm : h0.AnswersWith m P) (hf : ∀ x, P x → h0.AnswersWith (f x) Q) :
    h0.AnswersWith (m >>= f) Q := by
  intro h so lx
  obtain ⟨h1, h2, h3⟩ := hm h so lx
  exact hf _ h1 _ h2 h3

theorem AnswersWith.pure {x : α} {P : α → Prop} (hx : P x) :
    h0.AnswersWith (Pure.pure x : StateM Heap α) P := fun _ so lx => ⟨hx, so, lx⟩

theorem AnswersWith.mono {m : StateM Heap α} {P Q : α → Prop} (hm : h0.AnswersWith m P)
    (hPQ : ∀ x, P x → Q x) : h0.AnswersWith m Q := fun h so lx =>
  let ⟨a, b, c⟩ := hm h so lx; ⟨hPQ _ a, b, c⟩

theorem AnswersWith.get : h0.AnswersWith (MonadState.get : StateM Heap Heap)
    (fun h => h0.SameOrder h) := fun _ so lx => ⟨so, so, lx⟩

theorem Answers.bind {m : StateM Heap α} {f : α → StateM Heap β} {x : α} {Q : β → Prop}
    (hm : h0.Answers m x) (hf : h0.AnswersWith (f x) Q) : h0.AnswersWith (m >>= f) Q :=
  AnswersWith.bind hm (by rintro _ rfl; exact hf)

theorem Answers.pure {x : α} : h0.Answers (Pure.pure x : StateM Heap α) x :=
  AnswersWith.pure rfl

/-- a query whose answer is `x` in every state of the given order -/
theorem Answers.mapM {f : α → StateM Heap β} {g : α → β} (l : List α)
    (hf : ∀ a ∈ l, h0.Answers (f a) (g a)) : h0.Answers (l.mapM f) (l.map g) := by
  induction l with
  | nil => exact Answers.pure
  | cons a l ih =>
    rw [List.mapM_cons]
    refine Answers.bind (hf a (by simp)) ?_
    refine Answers.bind (ih (fun b hb => hf b (by simp [hb]))) ?_
    exact AnswersWith.pure rfl

/-- Two states with the same order answer alike. -/
theorem AnswersWith.congr {h1 : Heap} (so : h0.SameOrder h1) {m : StateM Heap α} {P : α → Prop}
    (hm : h0.AnswersWith m P) : h1.AnswersWith m P := by
  intro h so1 lx
  obtain ⟨a, b, c⟩ := hm h (so.trans so1) lx
  exact ⟨a, so.symm.trans b, c⟩

/-! ## the queries of causetevent.py -/

variable {h : Heap}

/-- The past links of `e` in the order of `h`, as a set. -/
theorem linkPast_answers (v : h0.Valid) (e : EId) :
    h0.Answers (linkPast e) (h0.pastLinks e) := by
  intro h so lx
  have v' := so.valid v
  simp only [StateT.run, linkPast]
  cases hl : h.lprec e with
  | none => exact ⟨so.pastLinks e, so.trans (link_sameOrder h e), link_linksExact v' lx e⟩
  | some s =>
    refine ⟨?_, so, lx⟩
    ext x
    change x ∈ s ↔ _
    rw [lx.past e s hl, so.Lt, mem_pastLinks v]

theorem linkFuture_answers (v : h0.Valid) (e : EId) :
    h0.Answers (linkFuture e) (h0.futureLinks e) := by
  intro h so lx
  have v' := so.valid v
  simp only [StateT.run, linkFuture]
  cases hl : h.lsucc e with
  | none => exact ⟨so.futureLinks e, so.trans (link_sameOrder h e), link_linksExact v' lx e⟩
  | some s =>
    refine ⟨?_, so, lx⟩
    ext x
    change x ∈ s ↔ _
    rw [lx.future e s hl, so.Lt, mem_futureLinks v]

theorem linkCone_answers (v : h0.Valid) (e : EId) :
    h0.Answers (linkCone e) (h0.pastLinks e ∪ h0.futureLinks e) := by
  intro h so lx
  have v' := so.valid v
  simp only [StateT.run, linkCone]
  cases hl : h.lprec e with
  | none =>
    refine ⟨?_, so.trans (link_sameOrder h e), link_linksExact v' lx e⟩
    dsimp only
    rw [so.pastLinks, so.futureLinks]
  | some s =>
    cases hl2 : h.lsucc e with
    | none => rw [← lx.both, hl] at hl2; simp at hl2
    | some t =>
      refine ⟨?_, so, lx⟩
      ext x
      change x ∈ s ∪ t ↔ _
      rw [Finset.mem_union, Finset.mem_union, lx.past e s hl, lx.future e t hl2, so.Lt,
        mem_pastLinks v, mem_futureLinks v]

theorem isPastLink_answers (v : h0.Valid) (a b : EId) :
    h0.Answers (isPastLink a b) (decide (b ∈ h0.pastLinks a)) := by
  have key : isPastLink a b = (do let s ← linkPast a; pure (decide (b ∈ s))) := by
    funext h
    simp only [isPastLink, linkPast, bind, StateT.bind]
    cases h.lprec a <;> rfl
  rw [key]
  exact Answers.bind (linkPast_answers v a) Answers.pure

theorem isFutureLink_answers (v : h0.Valid) (a b : EId) :
    h0.Answers (isFutureLink a b) (decide (b ∈ h0.futureLinks a)) := by
  have key : isFutureLink a b = (do let s ← linkFuture a; pure (decide (b ∈ s))) := by
    funext h
    simp only [isFutureLink, linkFuture, bind, StateT.bind]
    cases h.lsucc a <;> rfl
  rw [key]
  exact Answers.bind (linkFuture_answers v a) Answers.pure

theorem isLinkedTo_answers (v : h0.Valid) (a b : EId) :
    h0.Answers (isLinkedTo a b) (decide (b ∈ h0.pastLinks a ∪ h0.futureLinks a)) := by
  unfold isLinkedTo
  refine Answers.bind (isPastLink_answers v a b) ?_
  by_cases hb : b ∈ h0.pastLinks a
  · simp only [hb, decide_true, if_true]
    exact AnswersWith.pure (by simp [hb])
  · simp only [hb, decide_false]
    refine AnswersWith.mono (isFutureLink_answers v a b) ?_
    rintro _ rfl
    simp [hb]

theorem linkPastCard_answers (v : h0.Valid) (e : EId) :
    h0.Answers (linkPastCard e) (h0.pastLinks e).card :=
  Answers.bind (linkPast_answers v e) Answers.pure

theorem linkFutureCard_answers (v : h0.Valid) (e : EId) :
    h0.Answers (linkFutureCard e) (h0.futureLinks e).card :=
  Answers.bind (linkFuture_answers v e) Answers.pure

theorem linkConeCard_answers (v : h0.Valid) (e : EId) :
    h0.Answers (linkConeCard e) ((h0.pastLinks e).card &&& (h0.futureLinks e).card) := by
  intro h so lx
  have v' := so.valid v
  have hp : ∀ s, h.lprec e = some s → s = h0.pastLinks e := fun s hs => by
    ext x; rw [lx.past e s hs, so.Lt, mem_pastLinks v]
  have hf : ∀ s, h.lsucc e = some s → s = h0.futureLinks e := fun s hs => by
    ext x; rw [lx.future e s hs, so.Lt, mem_futureLinks v]
  simp only [StateT.run, linkConeCard]
  cases hl : h.lprec e with
  | none =>
    refine ⟨?_, so.trans (link_sameOrder h e), link_linksExact v' lx e⟩
    dsimp only
    rw [so.pastLinks, so.futureLinks]
  | some s =>
    cases hl2 : h.lsucc e with
    | none => rw [← lx.both, hl] at hl2; simp at hl2
    | some t =>
      refine ⟨?_, so, lx⟩
      dsimp only
      rw [hp s hl, hf t hl2]

theorem linkCountOf_answers (it : Iter) (v : h0.Valid) (s : Finset EId) :
    h0.Answers (linkCountOf it s) (∑ e ∈ s, (h0.pastLinks e ∩ s).card) := by
  unfold linkCountOf
  refine Answers.bind (x := (it.ord [0] s).map (fun e => (h0.pastLinks e ∩ s).card))
    (Answers.mapM _ (fun e _ => Answers.bind (linkPast_answers v e) Answers.pure)) ?_
  refine AnswersWith.pure ?_
  rw [← List.sum_toFinset _ (it.nodup _ _)]
  congr 1
  ext x; simp [it.mem]

end Heap

end Causets
