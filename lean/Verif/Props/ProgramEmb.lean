import Verif.Props.Program
import Verif.Props.SpacetimeOrder
import Verif.Model.TextFile
import Verif.Props.Sprinkle

/-! # C89 — programs with text files, embedded and sprinkled causets

The remaining constructors are sequences of the steps of `Program`, so that everything proved about programs holds for programs that use them. -/

namespace Causets

open Heap

theorem createEvents_program {links : Bool} {α : Type} (it : Iter) (fmt : Option (ℕ → String)) : ∀ (xs : List α) (n : ℕ) (w : World α), Program links w.heap →
    Program links (createEvents it fmt n xs w).2.heap
  | [], _, _, p => p
  | _ :: xs, n, w, p => createEvents_program it fmt xs (n + 1) _ (.newEvent w.heap it _ [] [] p (by simp) (by simp) (by simp))

/-- **C89, other constructors.** A state in which a program continues after any of the following calls is again a state of a program: `FromTextFile` (if a matrix that the file contains
is that of an order; otherwise an exception is raised), `create(..., relate=False)` for any coordinates, and `EmbeddedCauset(...)` for any arguments (if the causality function
of the spacetime describes an order on the given coordinates, see C43 and C44). -/
theorem C89_constructors (links : Bool) (it : Iter) :
    (∀ (h : Heap) (rd : ReadInt) (text : List Char) (isPast : Bool) (d : Char), Program links h → (∀ B, genfromtxt rd d text = .ok (some B) → ∃ n, IsOrderMatrix n B) →
      Program links (fromTextFile it rd text isPast d h).2) ∧
    (∀ (w : World Point) (c : Point → Point → Bool × Bool) (C : Finset EId) (coords : List Point) (fmt : Option (ℕ → String)), Program links w.heap →
      Program links (create c it C coords fmt false w).2.2.2.heap) ∧
    (∀ (w : World Point) (eps : ℝ) (sp : SpacetimeArg) (sh : ShapeArg) (co : CoordsArg) (dim : ℤ), Program links w.heap →
      (∀ M S, embArgs sp sh co dim = .ok (M, S, some co.points) → IsCausalOrder (M.causality eps) {x | x ∈ co.points}) → Program links (embInit eps it sp sh co dim w).2.heap) := by
  refine ⟨fun h rd text isPast d p hB => ?_, fun w c C coords fmt p => createEvents_program it fmt coords _ w p, fun w eps sp sh co dim p hc => ?_⟩
  · unfold fromTextFile
    split
    · exact p
    · exact p
    · next B hb =>
      obtain ⟨n, hn⟩ := hB B hb
      cases isPast
      · exact .fromFutureMatrix h it n B p hn
      · exact .fromPastMatrix h it n B p hn
  · have hxs : ∀ M S xs, embArgs sp sh co dim = .ok (M, S, some xs) → xs = co.points := by
      intro M S xs h
      unfold embArgs at h
      simp only [bind, Except.bind] at h
      split at h; · cases h
      split at h; · cases h
      split at h; · cases h
      split at h; · cases h
      split at h; · cases h
      next hi =>
      have h := (Prod.mk.inj (Prod.mk.inj (Except.ok.inj h)).2).2
      rw [h] at hi
      cases co <;> simp only [initCoords, CoordsArg.points] at hi ⊢
      · cases hi
      · exact (Option.some.inj (Except.ok.inj hi)).symm.trans (List.map_congr_left fun a _ => rowPoint_eq a)
      · split at hi
        · cases hi
        · exact (Option.some.inj (Except.ok.inj hi)).symm.trans (List.map_congr_left fun a _ => rowPoint_ofFn a)
      · cases hi
    unfold embInit
    split
    · exact p
    · exact p
    · next M S xs ha =>
      obtain rfl := hxs M S xs ha
      have q := Program.create w.heap it (M.causality eps) {x | x ∈ co.points} ∅ co.points none w.crd p (hc M S ha) (by simp) (by intro x hx; simp at hx) (by simp) (fun x hx => hx)
      dsimp only
      split <;> exact q

/-- **C89, sprinkled causets.** If the events of a `SprinkledCauset` exist, are a closed set and have positions on which the causality function describes an order, then after `sprinkle`, `intensify` and
`create` (whatever is drawn, provided that the new positions are also such; with an exception or without) the state is again a state of a program, and the events are as before. -/
theorem C89_sprinkled (it : Iter) (c : Point → Point → Bool × Bool) (P : Set Point) (hc : IsCausalOrder c P) (s : SprState) (p : Program true s.world.heap)
    (hex : ∀ e ∈ s.events, s.world.heap.Exists e) (hcl : Closed s.world.heap.Lt s.events) (hS : ∀ e ∈ s.events, ∃ x ∈ P, s.world.crd e = some x) :
    let Good (s' : SprState) := Program true s'.world.heap ∧ (∀ e ∈ s'.events, s'.world.heap.Exists e) ∧ Closed s'.world.heap.Lt s'.events ∧ (∀ e ∈ s'.events, ∃ x ∈ P, s'.world.crd e = some x) ∧
      s.events ⊆ s'.events
    (∀ (R : Draws) (junk : ℕ → Point) (dim : ℕ) (S : CoordinateShape) (count : ℤ), (∀ rows, sprinkleCoords R junk dim count S = .ok rows → ∀ x ∈ rows, x ∈ P) →
      Good (s.sprinkle c it R junk dim S count).2) ∧
    (∀ (R : Draws) (junk : ℕ → Point) (dim : ℕ) (S : CoordinateShape) (lam : ℝ) (k : ℕ), (∀ rows, sprinkleCoords R junk dim k S = .ok rows → ∀ x ∈ rows, x ∈ P) →
      Good (s.intensify c it R junk dim S lam k).2) ∧
    (∀ (coords : List Point) (fmt : Option (ℕ → String)), (∀ x ∈ coords, x ∈ P) → Good (s.create c it coords fmt true).2) := by
  intro Good
  have h0 : ∀ i : ℝ, Good { s with intensity := i } := fun i => ⟨p, hex, hcl, hS, Finset.Subset.refl _⟩
  have hsup : ∀ (coords : List Point) (fmt : Option (ℕ → String)) (i : ℝ), (∀ x ∈ coords, x ∈ P) → Good (SprState.superCreate c it coords fmt true { s with intensity := i }).2 := by
    intro coords fmt i hco
    obtain ⟨v, lx⟩ := p.inv
    obtain ⟨-, -, -, h4, h5, -, h7, -⟩ := C42_create c P hc it s.events coords fmt s.world v (lx rfl) hex hcl hS hco
    have e : (SprState.superCreate c it coords fmt true { s with intensity := i }).2 =
        { events := (Causets.create c it s.events coords fmt true s.world).1, intensity := i, world := (Causets.create c it s.events coords fmt true s.world).2.2.2 } := by
      unfold SprState.superCreate
      dsimp only
      split <;> rfl
    rw [e]
    refine ⟨.create s.world.heap it c P s.events coords fmt s.world.crd p hc hex hcl hS hco, h4, h5, h7, ?_⟩
    unfold Causets.create
    simp
  refine ⟨fun R junk dim S count hr => ?_, fun R junk dim S lam k hr => ?_, fun coords fmt hco => ?_⟩
  · unfold SprState.sprinkle
    split
    · exact h0 _
    · dsimp only
      split
      · exact h0 _
      · next rows hrows => exact hsup rows none _ (hr rows hrows)
  · unfold SprState.intensify
    split
    · exact h0 _
    · dsimp only
      split
      · exact h0 _
      · next rows hrows => exact hsup rows none _ (hr rows hrows)
  · have := hsup coords fmt s.intensity hco
    unfold SprState.create
    dsimp only
    split
    · exact this
    · exact this

/-- C89: a new `SprinkledCauset` in Minkowski spacetime, sprinkled on a cube twice; the hypotheses hold, whatever is drawn -/
example (it : Iter) (R : Draws) (junk : ℕ → Point) (S : CoordinateShape) :
    let M : SpacetimeObj := .flat ⟨2, false, none⟩
    let s0 : SprState := ⟨∅, 0, ⟨Heap.empty, fun _ => none⟩⟩
    let s1 := (s0.sprinkle (M.causality 0) it R junk 2 S 3).2
    Program true s1.world.heap ∧ Program true (s1.sprinkle (M.causality 0) it R junk 2 S 5).2.world.heap := by
  intro M s0 s1
  have hc : IsCausalOrder (M.causality 0) Set.univ := (C98_causality M ⟨2, .float 0, by simp [FlatSpacetime.init]⟩ Set.univ (fun x _ y _ i _ _ h => by simp [FlatSpacetime.periods] at h)).1
  obtain ⟨h1, -⟩ := C89_sprinkled it _ _ hc s0 .start (by simp [s0]) (by intro x hx; simp [s0] at hx) (by simp [s0])
  obtain ⟨a1, a2, a3, a4, -⟩ := h1 R junk 2 S 3 (fun _ _ _ _ => Set.mem_univ _)
  obtain ⟨h2, -⟩ := C89_sprinkled it _ _ hc s1 a1 a2 a3 a4
  exact ⟨a1, (h2 R junk 2 S 5 (fun _ _ _ _ => Set.mem_univ _)).1⟩

/-- C89: relating an embedded causet of two events anew with `link=False` is a step of a program; the order is that of the positions, and the events have no link memory -/
example : ∃ h, Program true h ∧ h.Lt 1 0 ∧ h.hasBeenLinked 0 = false := by
  let c : ℕ → ℕ → Bool × Bool := fun x y => (decide (x ≤ y), decide (y < x))
  have hc : IsCausalOrder c Set.univ := ⟨fun x _ y _ z _ a b => by simp [c] at *; omega, fun x _ y _ => by simp [c]; omega⟩
  have p1 := Program.newEvent (links := true) _ Iter.asc none [] [] .start (by simp) (by simp) (by simp)
  have p2 := Program.newEvent (links := true) _ Iter.asc none [0] [] p1 (by intro e he; simp at he; subst he; unfold Heap.Exists; decide) (by simp) (by simp)
  have p3 := Program.relate _ Iter.asc c Set.univ {0, 1} false (fun e => some (5 - e)) p2 hc
    (by intro e he; simp at he; rcases he with rfl | rfl <;> unfold Heap.Exists <;> decide)
    (by
      intro x _ y hy
      have v := p2.inv.1
      have hlt : ∀ a, ((Heap.empty.newEvent Iter.asc none [] []).2.newEvent Iter.asc none [0] []).2.Exists a → a ∈ ({0, 1} : Finset EId) := by
        intro a ha
        have : a < 2 := ha
        simp; omega
      rcases hy with hy | hy
      · exact hlt _ (v.exists_of_lt _ _ hy).2
      · exact hlt _ (v.exists_of_lt _ _ hy).1) (fun e he => ⟨_, Set.mem_univ _, rfl⟩)
  exact ⟨_, p3, by decide +kernel, by decide +kernel⟩

end Causets
