import Verif.Props.Embed

/-! # C42 for `create`, and histories of `create` calls -/

namespace Causets

open Heap

open Function (update)

variable {α : Type}

/-- what `create` makes of the state before it relates the events -/
theorem create_stage (c : α → α → Bool × Bool) (it : Iter) (C : Finset EId) (coords : List α) (fmt : Option (ℕ → String)) (w : World α)
    (v : w.heap.Valid) (lx : w.heap.LinksExact) (hex : ∀ e ∈ C, w.heap.Exists e) (hcl : Closed w.heap.Lt C) :
    ∃ w1 : World α, create c it C coords fmt true w =
        (C ∪ (List.range' w.heap.next coords.length).toFinset, (List.range' w.heap.next coords.length).toFinset,
          (relate c it (C ∪ (List.range' w.heap.next coords.length).toFinset) true w1).1,
          (relate c it (C ∪ (List.range' w.heap.next coords.length).toFinset) true w1).2) ∧
      w1.heap.Valid ∧ w1.heap.LinksExact ∧ (∀ e ∈ C ∪ (List.range' w.heap.next coords.length).toFinset, w1.heap.Exists e) ∧
      (∀ e, w.heap.Exists e → w1.heap.Exists e) ∧
      Closed w1.heap.Lt (C ∪ (List.range' w.heap.next coords.length).toFinset) ∧ (∀ a b, w1.heap.Lt a b ↔ w.heap.Lt a b) ∧
      (∀ i (hi : i < coords.length), w1.crd (w.heap.next + i) = some coords[i]) ∧
      (∀ e, e < w.heap.next → w1.crd e = w.crd e) := by
  obtain ⟨h1, h2, h3, h4⟩ := createEvents_spec it fmt coords (C.card + 1) w
  obtain ⟨v1, lx1, hLt⟩ := h2.valid v lx
  refine ⟨(createEvents it fmt (C.card + 1) coords w).2, ?_, v1, lx1, ?_, ?_, ?_, hLt, h3, h4⟩
  · unfold create
    simp only [if_true, h1]
  · intro e he
    unfold Heap.Exists at *
    rw [h2.next]
    rcases Finset.mem_union.1 he with he | he
    · have := hex e he; omega
    · rw [List.mem_toFinset, List.mem_range'_1] at he; omega
  · intro e he
    unfold Heap.Exists at *
    rw [h2.next]; omega
  · intro x hx y hxy
    unfold Related at hxy
    rw [hLt, hLt] at hxy
    rcases Finset.mem_union.1 hx with hx | hx
    · exact Finset.mem_union_left _ (hcl x hx y hxy)
    · rw [List.mem_toFinset, List.mem_range'_1] at hx
      rcases hxy with hxy | hxy
      · have := (v.exists_of_lt _ _ hxy).1; unfold Heap.Exists at this; omega
      · have := (v.exists_of_lt _ _ hxy).2; unfold Heap.Exists at this; omega

/-- **C42, `create`, any causality function.** After `create` two events of the causet satisfy `a < b` exactly as the causality function says for
the enumeration `L` of the events. -/
theorem C42_create_any (c : α → α → Bool × Bool) (it : Iter) (C : Finset EId) (coords : List α) (fmt : Option (ℕ → String)) (w : World α)
    (v : w.heap.Valid) (lx : w.heap.LinksExact) (hex : ∀ e ∈ C, w.heap.Exists e) (hcl : Closed w.heap.Lt C)
    (hemb : ∀ e ∈ C, (w.crd e).isSome) (pos : EId → α)
    (hpos : ∀ e x, (create c it C coords fmt true w).2.2.2.crd e = some x → pos e = x) :
    let r := create c it C coords fmt true w
    ∃ L : List EId, L.Nodup ∧ (∀ e, e ∈ L ↔ e ∈ r.1) ∧ ∀ a ∈ r.1, ∀ b ∈ r.1, r.2.2.2.heap.Lt a b ↔ RelOf c pos L a b := by
  intro r
  obtain ⟨w1, e1, v1, lx1, hex1, -, hcl1, hLt, g3, g4⟩ := create_stage c it C coords fmt w v lx hex hcl
  set C' := C ∪ (List.range' w.heap.next coords.length).toFinset with hC'
  have hcrd : (relate c it C' true w1).2.crd = w1.crd := by
    unfold relate
    split <;> rfl
  have hsome : ∀ e ∈ C', w1.crd e = some (pos e) := by
    intro e he
    have : (w1.crd e).isSome := by
      rcases Finset.mem_union.1 he with he | he
      · rw [g4 e (hex e he)]; exact hemb e he
      · rw [List.mem_toFinset, List.mem_range'_1] at he
        obtain ⟨k, hk⟩ : ∃ k, e = w.heap.next + k := ⟨e - w.heap.next, by omega⟩
        rw [hk, g3 k (by omega)]; rfl
    obtain ⟨x, hx⟩ := Option.isSome_iff_exists.1 this
    rw [hx, hpos e x (by rw [e1]; dsimp only; rw [hcrd]; exact hx)]
  obtain ⟨L, k1, k2, k3, -⟩ := C42_relate c it C' true w1 pos hsome
  have hr : r = _ := e1
  refine ⟨L, k1, fun e => ?_, fun a ha b hb => ?_⟩
  · rw [hr]; exact k2 e
  · rw [hr] at ha hb ⊢; exact k3 a b hb

/-- **C42, `create`.** If the causality function describes a causal order on the points `S`, all events of the causet are in `S` and all new
points too, `create` succeeds; the new state is consistent, the causet closed and linked, its events have coordinates in `S`; and if no
two different points precede each other mutually, `<` is exactly the causality of the coordinates; other events are unaffected. -/
theorem C42_create (c : α → α → Bool × Bool) (S : Set α) (hc : IsCausalOrder c S) (it : Iter) (C : Finset EId) (coords : List α)
    (fmt : Option (ℕ → String)) (w : World α) (v : w.heap.Valid) (lx : w.heap.LinksExact) (hex : ∀ e ∈ C, w.heap.Exists e)
    (hcl : Closed w.heap.Lt C) (hS : ∀ e ∈ C, ∃ x ∈ S, w.crd e = some x) (hcoords : ∀ x ∈ coords, x ∈ S) :
    let r := create c it C coords fmt true w
    r.2.2.1 = .ok () ∧ r.2.2.2.heap.Valid ∧ r.2.2.2.heap.LinksExact ∧ (∀ e ∈ r.1, r.2.2.2.heap.Exists e) ∧
      Closed r.2.2.2.heap.Lt r.1 ∧ (∀ e ∈ r.1, r.2.2.2.heap.hasBeenLinked e = true) ∧ (∀ e ∈ r.1, ∃ x ∈ S, r.2.2.2.crd e = some x) ∧
      ((∀ a ∈ r.1, ∀ b ∈ r.1, ∀ x y, r.2.2.2.crd a = some x → r.2.2.2.crd b = some y → a ≠ b → ¬ ((c x y).1 = true ∧ (c y x).1 = true)) →
        ∀ a ∈ r.1, ∀ b ∈ r.1, ∀ x y, r.2.2.2.crd a = some x → r.2.2.2.crd b = some y →
          (r.2.2.2.heap.Lt a b ↔ a ≠ b ∧ (c x y).1 = true)) ∧
      (∀ a b, a ∉ r.1 ∨ b ∉ r.1 → (r.2.2.2.heap.Lt a b ↔ w.heap.Lt a b)) := by
  intro r
  obtain ⟨w1, e1, v1, lx1, hex1, -, hcl1, hLt, g3, g4⟩ := create_stage c it C coords fmt w v lx hex hcl
  set C' := C ∪ (List.range' w.heap.next coords.length).toFinset with hC'
  have hin : ∀ e ∈ C', ∃ x ∈ S, w1.crd e = some x := by
    intro e he
    rcases Finset.mem_union.1 he with he | he
    · rw [g4 e (hex e he)]; exact hS e he
    · rw [List.mem_toFinset, List.mem_range'_1] at he
      obtain ⟨k, hk⟩ : ∃ k, e = w.heap.next + k := ⟨e - w.heap.next, by omega⟩
      exact ⟨coords[k]'(by omega), hcoords _ (List.getElem_mem _), by simp only [hk]; exact g3 k (by omega)⟩
  have hr : r = _ := e1
  by_cases hα : Nonempty α
  · let pos : EId → α := fun e => (w1.crd e).getD hα.some
    have hpos : ∀ e ∈ C', w1.crd e = some (pos e) := fun e he => by
      obtain ⟨x, -, hx⟩ := hin e he
      simp only [pos, hx, Option.getD_some]
    have hpS : ∀ e ∈ C', pos e ∈ S := fun e he => by
      obtain ⟨x, hx1, hx⟩ := hin e he
      simp only [pos, hx, Option.getD_some]; exact hx1
    obtain ⟨w', f1, f2, f3, f4, f5, f6, f7, f8, f9, f10⟩ := C42_causal_order c S hc it C' true w1 v1 lx1 hex1 hcl1 pos hpos hpS
    have hr' : r = (C', (List.range' w.heap.next coords.length).toFinset, .ok (), w') := by rw [hr, f1]
    rw [hr']
    refine ⟨rfl, f5, f6, fun e he => ?_, f7, f8, fun e he => ⟨pos e, hpS e he, by rw [f2]; exact hpos e he⟩, ?_, fun a b hab => (f10 a b hab).trans (hLt a b)⟩
    · have := hex1 e he
      unfold Heap.Exists at *
      rw [f3]; exact this
    · dsimp only
      intro hdist a ha b hb x y hx hy
      rw [f2] at hx hy
      have hxa : pos a = x := by rw [hpos a ha] at hx; simpa using hx
      have hyb : pos b = y := by rw [hpos b hb] at hy; simpa using hy
      have := C42_distinct c S hc it C' true w1 v1 lx1 hex1 hcl1 pos hpos hpS (fun a ha b hb hab =>
        hdist a ha b hb (pos a) (pos b) (by rw [f2]; exact hpos a ha) (by rw [f2]; exact hpos b hb) hab) a ha b hb
      rw [f1] at this
      rw [← hxa, ← hyb]
      exact this
  · have hC0 : C' = ∅ := by
      rw [Finset.eq_empty_iff_forall_notMem]
      intro e he
      obtain ⟨x, -⟩ := hin e he
      exact hα ⟨x⟩
    have e0 : ∀ k, it.ord k (∅ : Finset ℕ) = [] := fun k => by
      rw [List.eq_nil_iff_forall_not_mem]; intro x hx; rw [it.mem] at hx; simp at hx
    have hrel : relate c it (∅ : Finset EId) true w1 = (.ok (), w1) := by
      unfold relate
      rw [e0, e0]
      simp only [relateRows, relateClear, if_true]
      have : causetLink it ∅ w1.heap = (.ok (), w1.heap) := by
        unfold causetLink
        simp [e0, linkCompute, linkClear]
      rw [this]
    rw [hr, hC0, hrel]
    refine ⟨rfl, v1, lx1, by simp, by intro x hx; simp at hx, by simp, by simp, by simp, fun a b _ => hLt a b⟩

/-- **C42, histories.** In a spacetime whose causality function describes a causal order on `S`, after every sequence of `create` calls with
points of `S` on a new causet, every state is consistent: a valid partial order, links exact, all events linked and with coordinates. -/
theorem C42_history (c : α → α → Bool × Bool) (S : Set α) (hc : IsCausalOrder c S) (it : Iter) (calls : List (List α))
    (hcalls : ∀ xs ∈ calls, ∀ x ∈ xs, x ∈ S) :
    let s := runCreates c it calls
    s.2.heap.Valid ∧ s.2.heap.LinksExact ∧ (∀ e ∈ s.1, s.2.heap.Exists e) ∧ Closed s.2.heap.Lt s.1 ∧
      (∀ e ∈ s.1, s.2.heap.hasBeenLinked e = true) ∧ (∀ e ∈ s.1, ∃ x ∈ S, s.2.crd e = some x) := by
  induction calls with
  | nil =>
    have hno : ∀ a b, ¬ Heap.empty.Lt a b := fun a b hab => by simp [Heap.Lt, Heap.lt, Heap.empty] at hab
    refine ⟨⟨⟨fun a => hno a a, fun a b d h1 => absurd h1 (hno _ _)⟩, fun a b => ?_, fun a b => ?_, fun a b hab => absurd hab (hno _ _)⟩,
      ⟨fun e s hs => ?_, fun e s hs => ?_, fun e => ?_⟩, ?_, ?_, ?_, ?_⟩
    · simp [runCreates, Heap.past, Heap.empty, Heap.Lt, Heap.lt]
    · simp [runCreates, Heap.future, Heap.empty, Heap.Lt, Heap.lt]
    · simp [runCreates, Heap.empty] at hs
    · simp [runCreates, Heap.empty] at hs
    · simp [runCreates, Heap.empty]
    all_goals simp [runCreates, Closed]
  | cons xs before ih =>
    obtain ⟨i1, i2, i3, i4, i5, i6⟩ := ih fun ys hys => hcalls ys (by simp [hys])
    obtain ⟨-, k1, k2, k3, k4, k5, k6, -⟩ := C42_create c S hc it (runCreates c it before).1 xs none (runCreates c it before).2 i1 i2 i3 i4 i6
      (hcalls xs (by simp))
    exact ⟨k1, k2, k3, k4, k5, k6⟩

end Causets
