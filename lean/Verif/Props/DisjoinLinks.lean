import Verif.Lemmas.DisjoinExact
import Verif.Props.Events

/-!
# C08: exactly what the link queries answer after `disjoin`

`OnlyBetween h.Lt a e b` says that the pair `a`, `b` becomes linked when `e` is taken out of the order.
`visitedBefore` is the order in which Python happens to iterate the set `Cone` of the disjoined event.
-/

namespace Causets

open Heap

variable {h : Heap}

/-- **C08, what the link queries answer after `disjoin`**, for every iteration order: an event without link
memory answers with the links of the new order; an event with link memory answers with its old links
without `e`, and with those of the new links whose other end the loop has visited before. -/
theorem C08_queries (it : Iter) (h : Heap) (hr : LinkReachable h) (e : EId)
    (hl : h.hasBeenLinked e = true) (y x : EId) (hy : y ≠ e) :
    (x ∈ ((linkPast y).run (h.disjoin it e).2).1 ↔
      (Covers h.Lt x y ∧ x ≠ e) ∨
      (OnlyBetween h.Lt x e y ∧ (h.hasBeenLinked y = true → h.visitedBefore it e x y))) ∧
    (x ∈ ((linkFuture y).run (h.disjoin it e).2).1 ↔
      (Covers h.Lt y x ∧ x ≠ e) ∨
      (OnlyBetween h.Lt y e x ∧ (h.hasBeenLinked y = true → h.visitedBefore it e x y))) := by
  have v := hr.valid
  have hm := disjoin_memory it h v hr.linksExact e hl y
  have hc := disjoin_covers_iff it h v e hl
  have v' := disjoin_valid it h v e hl
  by_cases hly : h.hasBeenLinked y = true
  · obtain ⟨⟨s, hs, h1⟩, t, ht, h2⟩ := hm.2 hy hly
    simp only [StateT.run, linkPast, linkFuture, hs, ht, h1, h2, hly, true_imp_iff, and_self]
  · have hly' : h.hasBeenLinked y = false := by simpa using hly
    obtain ⟨h1, h2⟩ := hm.1 (Or.inr hly')
    simp only [StateT.run, linkPast, linkFuture, h1, h2, mem_pastLinks v', mem_futureLinks v', hc,
      hly', Bool.false_eq_true, false_imp_iff, and_true]
    constructor <;> simp only [hy, ne_eq, not_false_eq_true, and_true, true_and]

/-- **C08, exactly when the link queries stay right:** after `e.disjoin()` the link memory is exact iff for
every new link the ends that have link memory are visited after the other end. -/
theorem C08_exact_iff (it : Iter) (h : Heap) (hr : LinkReachable h) (e : EId)
    (hl : h.hasBeenLinked e = true) :
    (h.disjoin it e).2.LinksExact ↔ ∀ a b, OnlyBetween h.Lt a e b →
      (h.hasBeenLinked a = true → h.visitedBefore it e b a) ∧
      (h.hasBeenLinked b = true → h.visitedBefore it e a b) :=
  disjoin_linksExact_iff it h hr.valid hr.linksExact e hl

/-- an iteration order that starts with `a` (if `a` is in the set) -/
def Iter.startingWith (a : EId) : Iter where
  ord := fun c s => if a ∈ s then a :: Iter.asc.ord c (s.erase a) else Iter.asc.ord c s
  nodup := fun c s => by
    split_ifs with ha
    · rw [List.nodup_cons]
      refine ⟨?_, Iter.asc.nodup _ _⟩
      rw [Iter.asc.mem]; simp
    · exact Iter.asc.nodup _ _
  mem := fun c s x => by
    split_ifs with ha
    · rw [List.mem_cons, Iter.asc.mem, Finset.mem_erase]
      by_cases hx : x = a
      · simp [hx, ha]
      · simp [hx]
    · exact Iter.asc.mem _ _ _

theorem visitedBefore_startingWith (h : Heap) (e a b : EId) (ha : a ∈ h.cone e) (hne : b ≠ a) :
    ¬ h.visitedBefore (Iter.startingWith a) e b a := by
  simp only [visitedBefore, Iter.startingWith, ha, if_true, List.idxOf_cons_self]
  omega

/-- **C08, independently of the iteration order:** the link queries stay right whatever order Python iterates
in iff no end of a new link has link memory. -/
theorem C08_always_iff (h : Heap) (hr : LinkReachable h) (e : EId)
    (hl : h.hasBeenLinked e = true) :
    (∀ it, (h.disjoin it e).2.LinksExact) ↔
      ∀ a b, OnlyBetween h.Lt a e b → h.hasBeenLinked a = false ∧ h.hasBeenLinked b = false := by
  have v := hr.valid
  constructor
  · intro hh a b hab
    have hne : a ≠ b := v.ne (v.trans hab.1 hab.2.1)
    have ha : a ∈ h.cone e := v.mem_cone.2 (Or.inl hab.1)
    have hb : b ∈ h.cone e := v.mem_cone.2 (Or.inr (Or.inr hab.2.1))
    constructor
    · by_contra hc
      have := ((C08_exact_iff (Iter.startingWith a) h hr e hl).1 (hh _) a b hab).1 (by simpa using hc)
      exact visitedBefore_startingWith h e a b ha hne.symm this
    · by_contra hc
      have := ((C08_exact_iff (Iter.startingWith b) h hr e hl).1 (hh _) a b hab).2 (by simpa using hc)
      exact visitedBefore_startingWith h e b a hb hne this
  · intro hh it
    rw [C08_exact_iff it h hr e hl]
    intro a b hab
    obtain ⟨h1, h2⟩ := hh a b hab
    simp [h1, h2]

/-- in the chain 0 < 1 < 2 with link memory at 0 and 1 there is a new link when 1 is disjoined; the
query of 2 (without link memory) is right, that of 0 depends on the iteration order -/
example : ∃ h, LinkReachable h ∧ h.hasBeenLinked 1 = true ∧ h.hasBeenLinked 0 = true ∧
    h.hasBeenLinked 2 = false ∧ OnlyBetween h.Lt 0 1 2 ∧
    (∃ it, (h.disjoin it 1).2.LinksExact) ∧ (∃ it, ¬ (h.disjoin it 1).2.LinksExact) := by
  have hr : LinkReachable ((exChain3.link 0).link 1) := .link _ _ (.link _ _ exChain3_reach)
  have v := hr.valid
  have hb : ∀ a b, OnlyBetween ((exChain3.link 0).link 1).Lt a 1 b → a = 0 ∧ b = 2 := by
    rintro a b ⟨h1, h2, -⟩
    have ha : a < 3 := (v.exists_of_lt _ _ h1).1
    have hb : b < 3 := (v.exists_of_lt _ _ h2).2
    clear hr v
    revert h1 h2
    interval_cases a <;> interval_cases b <;> decide
  have h012 : OnlyBetween ((exChain3.link 0).link 1).Lt 0 1 2 := by
    refine ⟨by decide, by decide, fun c h1 h2 => ?_⟩
    have hc : c < 3 := (v.exists_of_lt _ _ h1).2
    clear hr v hb
    revert h1 h2
    interval_cases c <;> decide
  have hl2 : ((exChain3.link 0).link 1).hasBeenLinked 2 = false := by decide
  refine ⟨_, hr, by decide, by decide, hl2, h012, ⟨Iter.desc, ?_⟩,
    Iter.asc, fun hh => ?_⟩
  · rw [C08_exact_iff _ _ hr 1 (by decide)]
    intro a b hab
    obtain ⟨rfl, rfl⟩ := hb a b hab
    refine ⟨fun _ => ?_, fun hh => by rw [hl2] at hh; cases hh⟩
    show _ < _
    decide
  · have := ((C08_exact_iff _ _ hr 1 (by decide)).1 hh 0 2 h012).1 (by decide)
    revert this
    show ¬ _ < _
    decide

end Causets
