import Verif.Model.EmbInit
import Verif.Model.Horizon

/-! # C122 — symmetries of the spacetime -/

namespace Causets

/-- **Specification.** The program in which every event has been moved by `f`: the same events, order, links and labels. -/
def World.moved {α β : Type} (f : α → β) (w : World α) : World β := { heap := w.heap, crd := fun e => (w.crd e).map f }

section
variable {α β : Type} (c : α → α → Bool × Bool) (c' : β → β → Bool × Bool) (f : α → β)

theorem relateRow_moved (crd : EId → Option α) (a : EId) : ∀ (l : List EId) (h : Heap),
    (∀ b ∈ l, ∀ x y, crd a = some x → crd b = some y → c' (f x) (f y) = c x y) →
    relateRow c' (fun e => (crd e).map f) a l h = relateRow c crd a l h
  | [], _, _ => rfl
  | b :: l, h, hc => by
    unfold relateRow
    rcases ha : crd a with _ | x
    · rfl
    rcases hb : crd b with _ | y
    · rfl
    simp only [Option.map_some]
    rw [hc b (by simp) x y ha hb]
    exact relateRow_moved crd a l _ fun b' hb' => hc b' (by simp [hb'])

theorem relateRows_moved (crd : EId → Option α) : ∀ (l : List EId) (h : Heap),
    (∀ a ∈ l, ∀ b ∈ l, ∀ x y, crd a = some x → crd b = some y → c' (f x) (f y) = c x y) →
    relateRows c' (fun e => (crd e).map f) l h = relateRows c crd l h
  | [], _, _ => rfl
  | a :: l, h, hc => by
    unfold relateRows
    rw [relateRow_moved c c' f crd a l h fun b hb => hc a (by simp) b (by simp [hb])]
    rcases relateRow c crd a l h with ⟨_ | _, h'⟩
    · rfl
    · exact relateRows_moved crd l h' fun a' ha' b hb => hc a' (by simp [ha']) b (by simp [hb])

theorem relate_moved (it : Iter) (C : Finset EId) (link : Bool) (w : World α)
    (hc : ∀ a ∈ C, ∀ b ∈ C, ∀ x y, w.crd a = some x → w.crd b = some y → c' (f x) (f y) = c x y) :
    relate c' it C link (w.moved f) = ((relate c it C link w).1, (relate c it C link w).2.moved f) := by
  unfold relate World.moved
  dsimp only
  rw [relateRows_moved c c' f w.crd _ _ fun a ha b hb => hc a ((it.mem _ _ _).1 ha) b ((it.mem _ _ _).1 hb)]
  rcases relateRows c w.crd (it.ord [221] C) (Heap.relateClear (it.ord [218] C) w.heap) with ⟨_ | _, h'⟩
  · rfl
  · rfl

theorem createEvents_moved (it : Iter) (fmt : Option (ℕ → String)) : ∀ (xs : List α) (n : ℕ) (w : World α),
    createEvents it fmt n (xs.map f) (w.moved f) = ((createEvents it fmt n xs w).1, (createEvents it fmt n xs w).2.moved f)
  | [], _, _ => rfl
  | x :: xs, n, w => by
    rw [List.map_cons]
    unfold createEvents
    dsimp only
    have e : ∀ (l : Option Label), ({ heap := ((w.moved f).heap.newEvent it l [] []).2, crd := Function.update (w.moved f).crd ((w.moved f).heap.newEvent it l [] []).1 (some (f x)) } : World β) =
        ({ heap := (w.heap.newEvent it l [] []).2, crd := Function.update w.crd (w.heap.newEvent it l [] []).1 (some x) } : World α).moved f := by
      intro l
      unfold World.moved
      dsimp only
      congr 1
      funext y
      by_cases hy : y = (w.heap.newEvent it l [] []).1
      · subst hy; simp
      · simp [Function.update_of_ne hy]
    rw [e, createEvents_moved it fmt xs]
    rfl

theorem createEvents_coords (it : Iter) (fmt : Option (ℕ → String)) (S : Set α) : ∀ (xs : List α) (n : ℕ) (w : World α) (D : Finset EId),
    (∀ x ∈ xs, x ∈ S) → (∀ e ∈ D, ∀ x, w.crd e = some x → x ∈ S) →
    ∀ e ∈ D ∪ (createEvents it fmt n xs w).1.toFinset, ∀ x, (createEvents it fmt n xs w).2.crd e = some x → x ∈ S
  | [], _, w, D, _, hD => by simpa [createEvents] using hD
  | x :: xs, n, w, D, hx, hD => by
    intro e he y hy
    unfold createEvents at he hy
    dsimp only at he hy
    generalize hp : w.heap.newEvent it _ [] [] = p at he hy
    refine createEvents_coords it fmt S xs (n + 1) { heap := p.2, crd := Function.update w.crd p.1 (some x) } (insert p.1 D) (fun z hz => hx z (by simp [hz])) ?_ e ?_ y hy
    · intro e' he' z hz
      by_cases h : e' = p.1
      · subst h
        simp at hz
        rw [← hz]
        exact hx x (by simp)
      · simp only [Function.update_of_ne h] at hz
        exact hD e' (by simpa [h] using he') z hz
    · simp only [Finset.mem_union, List.toFinset_cons, Finset.mem_insert] at he ⊢
      tauto

/-- **C122, causal sets.** If the causality function has the same values for moved points, `create` gives the same causal set for the moved coordinates: the same events, labels, order and links, the same
result or exception; only the coordinates are moved. -/
theorem C122_create (S : Set α) (hc : ∀ x ∈ S, ∀ y ∈ S, c' (f x) (f y) = c x y) (it : Iter) (C : Finset EId) (coords : List α) (hx : ∀ x ∈ coords, x ∈ S) (fmt : Option (ℕ → String))
    (doRelate : Bool) (w : World α) (hw : ∀ e ∈ C, ∀ x, w.crd e = some x → x ∈ S) :
    let r := create c it C coords fmt doRelate w
    create c' it C (coords.map f) fmt doRelate (w.moved f) = (r.1, r.2.1, r.2.2.1, r.2.2.2.moved f) := by
  intro r
  have hS := createEvents_coords it fmt S coords (C.card + 1) w C hx hw
  unfold create
  dsimp only
  rw [createEvents_moved f it fmt coords]
  dsimp only
  cases doRelate with
  | true =>
    simp only [if_true]
    rw [relate_moved c c' f it _ true _ fun a ha b hb x y h1 h2 => hc x (hS a ha x h1) y (hS b hb y h2)]
    simp [r, create]
  | false => simp [r, create]

end

end Causets
