import Verif.Lemmas.NewEvent
import Verif.Model.Causet

/-! # `merge`, and the operations that only touch link memory -/

namespace Causets

open Function (update)

namespace Heap

variable {h : Heap}

/-- one pair in `merge` -/
theorem mergeStep_fields (h : Heap) (p f : EId) :
    let g := ((h.addToFuture p f).2.addToPast f p).2
    g.next = h.next ∧ g.label = h.label ∧
    g.prec = update h.prec f (insert p (h.prec f)) ∧
    g.succ = update h.succ p (insert f (h.succ p)) := by
  refine ⟨?_, ?_, ?_, ?_⟩
  · rw [addToPast_next, addToFuture_next]
  · rw [addToPast_label, addToFuture_label]
  · rw [addToPast_prec, addToFuture_prec]
  · rw [addToPast_succ, addToFuture_succ]

theorem mergeInner_fields (p : EId) (L : List EId) (h : Heap) :
    (mergeInner p L h).next = h.next ∧ (mergeInner p L h).label = h.label ∧
    (∀ a b, a ∈ (mergeInner p L h).prec b ↔ a ∈ h.prec b ∨ (a = p ∧ b ∈ L)) ∧
    (∀ a b, b ∈ (mergeInner p L h).succ a ↔ b ∈ h.succ a ∨ (a = p ∧ b ∈ L)) := by
  induction L generalizing h with
  | nil => simp [mergeInner]
  | cons f fs ih =>
    obtain ⟨a1, a2, a3, a4⟩ := mergeStep_fields h p f
    obtain ⟨b1, b2, b3, b4⟩ := ih ((h.addToFuture p f).2.addToPast f p).2
    refine ⟨b1.trans a1, b2.trans a2, fun a b => ?_, fun a b => ?_⟩
    · rw [mergeInner, b3, a3]
      by_cases hb : b = f
      · subst hb; simp; tauto
      · simp [hb]
    · rw [mergeInner, b4, a4]
      by_cases ha : a = p
      · subst ha; simp; tauto
      · simp [ha]

theorem mergeLoop_fields (it : Iter) (F : Finset EId) (L : List EId) (h : Heap) :
    (mergeLoop it F L h).next = h.next ∧ (mergeLoop it F L h).label = h.label ∧
    (∀ a b, a ∈ (mergeLoop it F L h).prec b ↔ a ∈ h.prec b ∨ (a ∈ L ∧ b ∈ F)) ∧
    (∀ a b, b ∈ (mergeLoop it F L h).succ a ↔ b ∈ h.succ a ∨ (a ∈ L ∧ b ∈ F)) := by
  induction L generalizing h with
  | nil => simp [mergeLoop]
  | cons p ps ih =>
    obtain ⟨a1, a2, a3, a4⟩ := mergeInner_fields p (it.ord [p, 238] F) h
    obtain ⟨b1, b2, b3, b4⟩ := ih (mergeInner p (it.ord [p, 238] F) h)
    refine ⟨b1.trans a1, b2.trans a2, fun a b => ?_, fun a b => ?_⟩
    · rw [mergeLoop, b3, a3, it.mem, List.mem_cons]; tauto
    · rw [mergeLoop, b4, a4, it.mem, List.mem_cons]; tauto

/-- relations after `merge` -/
theorem merge_fields (it : Iter) (P F : Finset EId) (h : Heap) :
    let g := (merge it P F false h).2
    g.next = h.next ∧ g.label = h.label ∧
    (∀ a b, a ∈ g.prec b ↔ a ∈ h.prec b ∨ (a ∈ P ∧ b ∈ F)) ∧
    (∀ a b, b ∈ g.succ a ↔ b ∈ h.succ a ∨ (a ∈ P ∧ b ∈ F)) := by
  have := mergeLoop_fields it F (it.ord [237] P) h
  simp only [it.mem] at this
  exact this

theorem merge_valid (it : Iter) (P F : Finset EId) (h : Heap) (v : h.Valid)
    (eP : ∀ p ∈ P, h.Exists p) (eF : ∀ f ∈ F, h.Exists f)
    (hP : ∀ p ∈ P, ∀ x, h.Lt x p → x ∈ P) (hF : ∀ f ∈ F, ∀ x, h.Lt f x → x ∈ F)
    (hd : Disjoint P F) : (merge it P F false h).2.Valid := by
  obtain ⟨hn, -, hp, hs⟩ := merge_fields it P F h
  apply Valid.mk'
  · intro a b; rw [hp, hn, v.mem_prec]
    rintro (h1 | h1)
    · exact v.exists_of_lt _ _ h1
    · exact ⟨eP _ h1.1, eF _ h1.2⟩
  · intro a b; rw [hp, hs, v.mem_prec, v.mem_succ]
  · intro a; rw [hp, v.mem_prec]
    rintro (h1 | h1)
    · exact v.irrefl _ h1
    · exact Finset.disjoint_left.1 hd h1.1 h1.2
  · intro a b c; rw [hp, hp, hp, v.mem_prec, v.mem_prec, v.mem_prec]
    rintro (h1 | h1) (h2 | h2)
    · exact Or.inl (v.trans h1 h2)
    · exact Or.inr ⟨hP _ h2.1 _ h1, h2.2⟩
    · exact Or.inr ⟨h1.1, hF _ h1.2 _ h2⟩
    · exact absurd h1.2 (Finset.disjoint_left.1 hd h2.1)

/-! ## Link-only operations keep the order -/

theorem unlinkAll_sameOrder (L : List EId) (h : Heap) : h.SameOrder (unlinkAll L h).2 := by
  induction L generalizing h with
  | nil => exact SameOrder.refl _
  | cons e es ih =>
    have h1 := unlink_sameOrder h e
    unfold unlinkAll
    rcases hu : h.unlink e with ⟨r, g⟩
    rw [hu] at h1
    cases r with
    | error x => exact h1
    | ok u => exact h1.trans (ih g)

theorem unlinkLinked_sameOrder (L : List EId) (h : Heap) : h.SameOrder (unlinkLinked L h).2 := by
  induction L generalizing h with
  | nil => exact SameOrder.refl _
  | cons e es ih =>
    have h1 := unlink_sameOrder h e
    unfold unlinkLinked
    split
    · rcases hu : h.unlink e with ⟨r, g⟩
      rw [hu] at h1
      cases r with
      | error x => exact h1
      | ok u => exact h1.trans (ih g)
    · exact ih h

theorem linkClear_sameOrder (L : List EId) (h : Heap) : h.SameOrder (linkClear L h) := by
  induction L generalizing h with
  | nil => exact SameOrder.refl _
  | cons e es ih =>
    have h1 : h.SameOrder { h with lsucc := update h.lsucc e (some ∅) } := ⟨rfl, rfl, rfl, rfl⟩
    exact h1.trans (ih _)

theorem linkAddSucc_sameOrder (b : EId) (L : List EId) (h : Heap) :
    h.SameOrder (linkAddSucc b L h).2 := by
  induction L generalizing h with
  | nil => exact SameOrder.refl _
  | cons e es ih =>
    unfold linkAddSucc
    split
    · exact SameOrder.refl _
    · rename_i t _
      have h1 : h.SameOrder { h with lsucc := update h.lsucc e (some (insert b t)) } :=
        ⟨rfl, rfl, rfl, rfl⟩
      exact h1.trans (ih _)

theorem linkCompute_sameOrder (it : Iter) (L : List EId) (h : Heap) :
    h.SameOrder (linkCompute it L h).2 := by
  induction L generalizing h with
  | nil => exact SameOrder.refl _
  | cons e es ih =>
    unfold linkCompute
    dsimp only
    have h1 := linkAddSucc_sameOrder e (it.ord [e, 291] (h.pastLinks e))
      { h with lprec := update h.lprec e (some (h.pastLinks e)) }
    rcases hu : linkAddSucc e (it.ord [e, 291] (h.pastLinks e))
      { h with lprec := update h.lprec e (some (h.pastLinks e)) } with ⟨r, g⟩
    rw [hu] at h1
    have h0 : h.SameOrder { h with lprec := update h.lprec e (some (h.pastLinks e)) } :=
      ⟨rfl, rfl, rfl, rfl⟩
    have h2 : h.SameOrder g := h0.trans h1
    cases r with
    | error x => exact h2
    | ok u => exact h2.trans (ih g)

theorem causetLink_sameOrder (it : Iter) (C : Finset EId) (h : Heap) :
    h.SameOrder (causetLink it C h).2 :=
  (linkClear_sameOrder _ _).trans (linkCompute_sameOrder _ _ _)

theorem causetUnlink_sameOrder (it : Iter) (C : Finset EId) (h : Heap) :
    h.SameOrder (causetUnlink it C h).2 := unlinkLinked_sameOrder _ _

theorem unlinkAll_linksExact (L : List EId) (h : Heap) (lx : h.LinksExact) :
    (unlinkAll L h).2.LinksExact := by
  induction L generalizing h with
  | nil => exact lx
  | cons e es ih =>
    have h1 := unlink_linksExact lx e
    unfold unlinkAll
    rcases hu : h.unlink e with ⟨r, g⟩
    rw [hu] at h1
    cases r with
    | error x => exact h1
    | ok u => exact ih g h1

theorem unlinkLinked_linksExact (L : List EId) (h : Heap) (lx : h.LinksExact) :
    (unlinkLinked L h).2.LinksExact := by
  induction L generalizing h with
  | nil => exact lx
  | cons e es ih =>
    have h1 := unlink_linksExact lx e
    unfold unlinkLinked
    split
    · rcases hu : h.unlink e with ⟨r, g⟩
      rw [hu] at h1
      cases r with
      | error x => exact h1
      | ok u => exact ih g h1
    · exact ih h lx

end Heap

end Causets
