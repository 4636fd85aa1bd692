import Verif.Spec
import Verif.Model.Event

/-!
# What it means for a state of the program to be consistent

The vocabulary of the property theorems about whole states, in terms of the API: `<` (`Heap.lt`), `Past`
(`Heap.past`), `Future` (`Heap.future`) and the link memory.
-/

namespace Causets

namespace Heap

/-- The relation `a < b` on event objects, as a proposition. -/
def Lt (h : Heap) (a b : EId) : Prop := h.lt a b = true

instance (h : Heap) (a b : EId) : Decidable (h.Lt a b) := inferInstanceAs (Decidable (_ = true))

/-- `e` is an existing event object. -/
def Exists (h : Heap) (e : EId) : Prop := e < h.next

instance (h : Heap) (e : EId) : Decidable (h.Exists e) := inferInstanceAs (Decidable (_ < _))

/-- A consistent state: `<` is a strict partial order on the existing events and `Past` and `Future` mirror
each other. -/
structure Valid (h : Heap) : Prop where
  order : StrictOrd h.Lt
  past_eq : ∀ a b, a ∈ h.past b ↔ h.Lt a b
  future_eq : ∀ a b, b ∈ h.future a ↔ h.Lt a b
  exists_of_lt : ∀ a b, h.Lt a b → h.Exists a ∧ h.Exists b

/-- The link memory of every event either does not exist or holds exactly the links of the current
order. -/
structure LinksExact (h : Heap) : Prop where
  past : ∀ e s, h.lprec e = some s → ∀ x, x ∈ s ↔ Covers h.Lt x e
  future : ∀ e s, h.lsucc e = some s → ∀ x, x ∈ s ↔ Covers h.Lt e x
  both : ∀ e, h.lprec e = none ↔ h.lsucc e = none

/-- Nothing observable about the causal order and the labels differs between two states (the link memory may). -/
structure SameOrder (h h' : Heap) : Prop where
  next : h'.next = h.next
  label : h'.label = h.label
  prec : h'.prec = h.prec
  succ : h'.succ = h.succ

/-- `h'` arises from the state `h` by creating events `ids i` (one for each index `i`) that are ordered among
themselves exactly by `R`; they are new, pairwise different, and not related to any other event; nothing
about the order and the labels of the older events has changed, and `h'` is again consistent. -/
structure Realises (h h' : Heap) {ι : Type} (ids : ι → EId) (R : ι → ι → Prop) : Prop where
  valid : h'.Valid
  injective : Function.Injective ids
  fresh : ∀ i, ¬ h.Exists (ids i)
  alive : ∀ i, h'.Exists (ids i)
  rel : ∀ i j, h'.Lt (ids i) (ids j) ↔ R i j
  only : ∀ a b, h'.Lt a b → h.Lt a b ∨ ∃ i j, a = ids i ∧ b = ids j
  old : ∀ a b, h.Exists a → h.Exists b → (h'.Lt a b ↔ h.Lt a b)
  old_alive : ∀ a, h.Exists a → h'.Exists a
  old_label : ∀ a, h.Exists a → h'.label a = h.label a

/-- Asked in *any* state with the same causal order as `h0` and exact link memory (whatever has been cached so
far), the query `m` returns a value satisfying `P`, leaves order and labels as they are, and leaves
the link memory exact. -/
def AnswersWith (h0 : Heap) {α : Type} (m : StateM Heap α) (P : α → Prop) : Prop :=
  ∀ h : Heap, h0.SameOrder h → h.LinksExact →
    P (m.run h).1 ∧ h0.SameOrder (m.run h).2 ∧ (m.run h).2.LinksExact

/-- The query always returns `x`. -/
def Answers (h0 : Heap) {α : Type} (m : StateM Heap α) (x : α) : Prop :=
  h0.AnswersWith m (fun y => y = x)

end Heap

end Causets
