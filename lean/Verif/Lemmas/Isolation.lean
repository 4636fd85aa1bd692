import Verif.Lemmas.NewClosed
import Verif.Model.CausetLinks
import Verif.Model.EmbInit
import Verif.Model.TextFile

/-! # Calls on events of a set that nothing leads out of stay in this set -/

namespace Causets

open Heap

open Function (update)

/-- **Specification.** `U` is a part of the world on its own: whatever the events of `U` refer to (past, future, link memory) is in `U`. -/
def Heap.SelfContained (h : Heap) (U : Set EId) : Prop :=
  ∀ x ∈ U, (∀ y ∈ h.prec x, y ∈ U) ∧ (∀ y ∈ h.succ x, y ∈ U) ∧ (∀ s, h.lprec x = some s → ∀ y ∈ s, y ∈ U) ∧ (∀ s, h.lsucc x = some s → ∀ y ∈ s, y ∈ U)

/-- **Specification.** The event `x` is the same in the states `h` and `g`: label, past, future and link memory. -/
def SameEvent (h g : Heap) (x : EId) : Prop :=
  g.label x = h.label x ∧ g.prec x = h.prec x ∧ g.succ x = h.succ x ∧ g.lprec x = h.lprec x ∧ g.lsucc x = h.lsucc x

theorem SameEvent.refl (h : Heap) (x : EId) : SameEvent h h x := ⟨rfl, rfl, rfl, rfl, rfl⟩

theorem SameEvent.trans {h g k : Heap} {x : EId} (a : SameEvent h g x) (b : SameEvent g k x) : SameEvent h k x :=
  ⟨b.1.trans a.1, b.2.1.trans a.2.1, b.2.2.1.trans a.2.2.1, b.2.2.2.1.trans a.2.2.2.1, b.2.2.2.2.trans a.2.2.2.2⟩

/-- from `h0` to `h` only events of `U` have changed, and `U` is self-contained -/
structure Isolated (U : Set EId) (h0 h : Heap) : Prop where
  next : h0.next ≤ h.next
  out : ∀ x, x ∉ U → SameEvent h0 h x
  inn : h.SelfContained U

namespace Isolated

variable {U : Set EId} {h0 h g : Heap}

/-- one event of `U` changes -/
theorem upd (i : Isolated U h0 h) (e : EId) (he : e ∈ U) (hn : h.next ≤ g.next) (hne : ∀ x, x ≠ e → SameEvent h g x)
    (h1 : ∀ y ∈ g.prec e, y ∈ U) (h2 : ∀ y ∈ g.succ e, y ∈ U) (h3 : ∀ s, g.lprec e = some s → ∀ y ∈ s, y ∈ U) (h4 : ∀ s, g.lsucc e = some s → ∀ y ∈ s, y ∈ U) : Isolated U h0 g where
  next := i.next.trans hn
  out x hx := (i.out x hx).trans (hne x (fun h => hx (h ▸ he)))
  inn x hx := by
    by_cases hxe : x = e
    · subst hxe; exact ⟨h1, h2, h3, h4⟩
    · obtain ⟨a1, a2, a3, a4⟩ := i.inn x hx
      obtain ⟨-, b2, b3, b4, b5⟩ := hne x hxe
      rw [b2, b3, b4, b5]
      exact ⟨a1, a2, a3, a4⟩

/-- several events of `U` change -/
theorem upds (i : Isolated U h0 h) (hn : h.next ≤ g.next) (hne : ∀ x, x ∉ U → SameEvent h g x) (hin : g.SelfContained U) : Isolated U h0 g where
  next := i.next.trans hn
  out x hx := (i.out x hx).trans (hne x hx)
  inn := hin

theorem pastLinks_mem (i : Isolated U h0 h) {e : EId} (he : e ∈ U) : ∀ y ∈ h.pastLinks e, y ∈ U := fun y hy =>
  (i.inn e he).1 y (Finset.mem_filter.1 hy).1

theorem futureLinks_mem (i : Isolated U h0 h) {e : EId} (he : e ∈ U) : ∀ y ∈ h.futureLinks e, y ∈ U := fun y hy =>
  (i.inn e he).2.1 y (Finset.mem_filter.1 hy).1

theorem link (i : Isolated U h0 h) {e : EId} (he : e ∈ U) : Isolated U h0 (h.link e) := by
  refine i.upd e he le_rfl (fun x hx => ?_) (i.inn e he).1 (i.inn e he).2.1 (fun s hs => ?_) (fun s hs => ?_)
  · simp [SameEvent, Heap.link, Function.update_of_ne hx]
  · simp only [Heap.link, Function.update_self, Option.some.injEq] at hs
    subst hs; exact i.pastLinks_mem he
  · simp only [Heap.link, Function.update_self, Option.some.injEq] at hs
    subst hs; exact i.futureLinks_mem he

theorem unlink (i : Isolated U h0 h) {e : EId} (he : e ∈ U) : Isolated U h0 (h.unlink e).2 := by
  unfold Heap.unlink
  split
  · exact i
  · dsimp only
    split
    · refine i.upd e he le_rfl (fun x hx => ?_) (i.inn e he).1 (i.inn e he).2.1 (fun s hs => ?_) (i.inn e he).2.2.2
      · simp [SameEvent, Function.update_of_ne hx]
      · simp at hs
    · refine i.upd e he le_rfl (fun x hx => ?_) (i.inn e he).1 (i.inn e he).2.1 (fun s hs => ?_) (fun s hs => ?_)
      · simp [SameEvent, Function.update_of_ne hx]
      · simp at hs
      · simp at hs

theorem addToPast (i : Isolated U h0 h) {a b : EId} (ha : a ∈ U) (hb : b ∈ U) : Isolated U h0 (h.addToPast a b).2 := by
  obtain ⟨i1, i2, i3, i4⟩ := i.inn a ha
  unfold Heap.addToPast
  split_ifs with h1 h2
  · exact i
  · refine i.upd a ha le_rfl (fun x hx => by simp [SameEvent, Function.update_of_ne hx]) ?_ i2 ?_ i4
    · intro y hy
      simp only [Function.update_self, Finset.mem_insert] at hy
      rcases hy with rfl | hy
      exacts [hb, i1 y hy]
    · intro s hs y hy
      simp only [Function.update_self, Option.map_eq_some_iff] at hs
      obtain ⟨t, ht, rfl⟩ := hs
      simp only [Finset.mem_insert, Finset.mem_sdiff] at hy
      rcases hy with rfl | hy
      exacts [hb, i3 t ht y hy.1]
  · refine i.upd a ha le_rfl (fun x hx => by simp [SameEvent, Function.update_of_ne hx]) ?_ i2 i3 i4
    intro y hy
    simp only [Function.update_self, Finset.mem_insert] at hy
    rcases hy with rfl | hy
    exacts [hb, i1 y hy]

theorem addToFuture (i : Isolated U h0 h) {a b : EId} (ha : a ∈ U) (hb : b ∈ U) : Isolated U h0 (h.addToFuture a b).2 := by
  obtain ⟨i1, i2, i3, i4⟩ := i.inn a ha
  unfold Heap.addToFuture
  split_ifs with h1 h2
  · exact i
  · refine i.upd a ha le_rfl (fun x hx => by simp [SameEvent, Function.update_of_ne hx]) i1 ?_ i3 ?_
    · intro y hy
      simp only [Function.update_self, Finset.mem_insert] at hy
      rcases hy with rfl | hy
      exacts [hb, i2 y hy]
    · intro s hs y hy
      simp only [Function.update_self, Option.map_eq_some_iff] at hs
      obtain ⟨t, ht, rfl⟩ := hs
      simp only [Finset.mem_insert, Finset.mem_sdiff] at hy
      rcases hy with rfl | hy
      exacts [hb, i4 t ht y hy.1]
  · refine i.upd a ha le_rfl (fun x hx => by simp [SameEvent, Function.update_of_ne hx]) i1 ?_ i3 i4
    intro y hy
    simp only [Function.update_self, Finset.mem_insert] at hy
    rcases hy with rfl | hy
    exacts [hb, i2 y hy]

theorem discard (i : Isolated U h0 h) {a b : EId} (ha : a ∈ U) (hb : b ∈ U) : Isolated U h0 (h.discard a b).2 := by
  obtain ⟨i1, i2, i3, i4⟩ := i.inn a ha
  obtain ⟨j1, j2, -, -⟩ := i.inn b hb
  have er1 : ∀ y ∈ (h.prec a).erase b, y ∈ U := fun y hy => i1 y (Finset.mem_of_mem_erase hy)
  have er2 : ∀ y ∈ (h.succ a).erase b, y ∈ U := fun y hy => i2 y (Finset.mem_of_mem_erase hy)
  unfold Heap.discard
  split_ifs with h1 h2 h3 h4
  · refine i.upd a ha le_rfl (fun x hx => by simp [SameEvent, Function.update_of_ne hx]) (by simpa using er1) i2 ?_ i4
    intro s hs y hy
    simp only [Function.update_self, Option.map_eq_some_iff] at hs
    obtain ⟨t, ht, rfl⟩ := hs
    simp only [Finset.mem_erase, Finset.mem_union, Finset.mem_filter] at hy
    rcases hy.2 with hy | hy
    exacts [i3 t ht y hy, j1 y hy.1]
  · exact i.upd a ha le_rfl (fun x hx => by simp [SameEvent, Function.update_of_ne hx]) (by simpa using er1) i2 i3 i4
  · refine i.upd a ha le_rfl (fun x hx => by simp [SameEvent, Function.update_of_ne hx]) i1 (by simpa using er2) i3 ?_
    intro s hs y hy
    simp only [Function.update_self, Option.map_eq_some_iff] at hs
    obtain ⟨t, ht, rfl⟩ := hs
    simp only [Finset.mem_erase, Finset.mem_union, Finset.mem_filter] at hy
    rcases hy.2 with hy | hy
    exacts [i4 t ht y hy, j2 y hy.1]
  · exact i.upd a ha le_rfl (fun x hx => by simp [SameEvent, Function.update_of_ne hx]) i1 (by simpa using er2) i3 i4
  · exact i

/-- a loop of steps that keep the invariant -/
theorem foldl {F : Heap → EId → Heap} (hF : ∀ g x, Isolated U h0 g → x ∈ U → Isolated U h0 (F g x)) : ∀ (L : List EId) (h : Heap), Isolated U h0 h → (∀ x ∈ L, x ∈ U) →
    Isolated U h0 (L.foldl F h)
  | [], _, i, _ => i
  | x :: L, h, i, hL => foldl hF L _ (hF h x i (hL x (by simp))) (fun y hy => hL y (by simp [hy]))

theorem cone_mem (i : Isolated U h0 h) {e : EId} (he : e ∈ U) : ∀ y ∈ h.cone e, y ∈ U := fun y hy => by
  simp only [cone, Finset.mem_union, Finset.mem_singleton] at hy
  rcases hy with (hy | rfl) | hy
  exacts [(i.inn e he).1 y hy, he, (i.inn e he).2.1 y hy]

theorem setPrec (i : Isolated U h0 h) {e : EId} (he : e ∈ U) (s : Finset EId) (hs : ∀ y ∈ s, y ∈ U) : Isolated U h0 { h with prec := update h.prec e s } :=
  i.upd e he le_rfl (fun x hx => by simp [SameEvent, Function.update_of_ne hx]) (by simpa using hs) (i.inn e he).2.1 (i.inn e he).2.2.1 (i.inn e he).2.2.2

theorem setSucc (i : Isolated U h0 h) {e : EId} (he : e ∈ U) (s : Finset EId) (hs : ∀ y ∈ s, y ∈ U) : Isolated U h0 { h with succ := update h.succ e s } :=
  i.upd e he le_rfl (fun x hx => by simp [SameEvent, Function.update_of_ne hx]) (i.inn e he).1 (by simpa using hs) (i.inn e he).2.2.1 (i.inn e he).2.2.2

theorem setLprec (i : Isolated U h0 h) {e : EId} (he : e ∈ U) (s : Finset EId) (hs : ∀ y ∈ s, y ∈ U) : Isolated U h0 { h with lprec := update h.lprec e (some s) } :=
  i.upd e he le_rfl (fun x hx => by simp [SameEvent, Function.update_of_ne hx]) (i.inn e he).1 (i.inn e he).2.1 (fun t ht => by simp only [Function.update_self, Option.some.injEq] at ht; exact ht ▸ hs) (i.inn e he).2.2.2

theorem setLsucc (i : Isolated U h0 h) {e : EId} (he : e ∈ U) (s : Finset EId) (hs : ∀ y ∈ s, y ∈ U) : Isolated U h0 { h with lsucc := update h.lsucc e (some s) } :=
  i.upd e he le_rfl (fun x hx => by simp [SameEvent, Function.update_of_ne hx]) (i.inn e he).1 (i.inn e he).2.1 (i.inn e he).2.2.1 (fun t ht => by simp only [Function.update_self, Option.some.injEq] at ht; exact ht ▸ hs)

theorem setLabel (i : Isolated U h0 h) {e : EId} (he : e ∈ U) (l : Option Label) : Isolated U h0 { h with label := update h.label e l } :=
  i.upd e he le_rfl (fun x hx => by simp [SameEvent, Function.update_of_ne hx]) (i.inn e he).1 (i.inn e he).2.1 (i.inn e he).2.2.1 (i.inn e he).2.2.2

theorem disjoin (i : Isolated U h0 h) (it : Iter) {e : EId} (he : e ∈ U) : Isolated U h0 (h.disjoin it e).2 := by
  have iu := i.unlink he
  unfold Heap.disjoin
  split
  · next x h1 heq => rw [heq] at iu; exact iu
  · next x h1 heq =>
    rw [heq] at iu
    dsimp only
    have s1 := foldl (fun g x ig hx => ig.discard hx he) (it.ord [e, 0] (h1.cone e)) h1 iu (fun x hx => iu.cone_mem he x ((it.mem _ _ _).1 hx))
    have s2 := s1.setPrec he ∅ (by simp)
    have s3 := foldl (fun g x ig hx => ig.discard hx he) (it.ord [e, 1] _) _ s2 (fun x hx => s2.cone_mem he x ((it.mem _ _ _).1 hx))
    exact s3.setSucc he ∅ (by simp)

theorem alloc (i : Isolated U h0 h) (hU : ∀ x, h0.next ≤ x → x ∈ U) (l : Option Label) (P F : List EId) (hP : ∀ p ∈ P, p ∈ U) (hF : ∀ p ∈ F, p ∈ U) : Isolated U h0 (h.alloc l P F) := by
  refine i.upd h.next (hU _ i.next) (by simp [Heap.alloc]) (fun x hx => by simp [SameEvent, Heap.alloc, Function.update_of_ne hx]) ?_ ?_ (fun s hs => by simp [Heap.alloc] at hs)
    (fun s hs => by simp [Heap.alloc] at hs)
  · intro y hy
    simp only [Heap.alloc, Function.update_self, foldl_union_mem, Finset.notMem_empty, false_or] at hy
    obtain ⟨p, hp, hy⟩ := hy
    simp only [presentOrPast, Finset.mem_union, Finset.mem_singleton] at hy
    rcases hy with hy | rfl
    exacts [(i.inn p (hP p hp)).1 y hy, hP y hp]
  · intro y hy
    simp only [Heap.alloc, Function.update_self, foldl_union_mem, Finset.notMem_empty, false_or] at hy
    obtain ⟨p, hp, hy⟩ := hy
    simp only [presentOrFuture, Finset.mem_union, Finset.mem_singleton] at hy
    rcases hy with hy | rfl
    exacts [(i.inn p (hF p hp)).2.1 y hy, hF y hp]

theorem newEvent (i : Isolated U h0 h) (hU : ∀ x, h0.next ≤ x → x ∈ U) (it : Iter) (l : Option Label) (P F : List EId) (hP : ∀ p ∈ P, p ∈ U) (hF : ∀ p ∈ F, p ∈ U) :
    Isolated U h0 (h.newEvent it l P F).2 := by
  have ia := i.alloc hU l P F hP hF
  have hs : h.next ∈ U := hU _ i.next
  have s1 := foldl (fun g x ig hx => ig.addToFuture hx hs) (it.ord [h.next, 0] ((h.alloc l P F).prec h.next)) _ ia (fun x hx => (ia.inn _ hs).1 x ((it.mem _ _ _).1 hx))
  exact foldl (fun g x ig hx => ig.addToPast hx hs) (it.ord [h.next, 1] _) _ s1 (fun x hx => (s1.inn _ hs).2.1 x ((it.mem _ _ _).1 hx))

theorem copy (i : Isolated U h0 h) (hU : ∀ x, h0.next ≤ x → x ∈ U) {e : EId} (he : e ∈ U) : Isolated U h0 (h.copy e).2 := by
  obtain ⟨i1, i2, i3, i4⟩ := i.inn e he
  have hs : h.next ∈ U := hU _ i.next
  refine i.upd h.next hs ?_ (fun x hx => ?_) ?_ ?_ ?_ ?_
  · simp only [Heap.copy]; split_ifs <;> simp [Heap.alloc]
  · simp only [Heap.copy]; split_ifs <;> simp [SameEvent, Heap.alloc, Function.update_of_ne hx]
  · simp only [Heap.copy]; split_ifs <;> simpa using i1
  · simp only [Heap.copy]; split_ifs <;> simpa using i2
  · intro s hs'
    simp only [Heap.copy] at hs'
    split_ifs at hs'
    · simp only [Function.update_self] at hs'; exact i3 s hs'
    · simp [Heap.alloc] at hs'
  · intro s hs'
    simp only [Heap.copy] at hs'
    split_ifs at hs'
    · simp only [Function.update_self] at hs'; exact i4 s hs'
    · simp [Heap.alloc] at hs'

end Isolated

end Causets
