import Verif.Props.Relate

/-! # C42 (distinct events), C46, C65, C61 -/

namespace Causets

open Heap

open Function (update)

variable {h : Heap} {α : Type}

/-- **C42, iteration order.** If moreover no two different events of the causet precede each other mutually (e.g. their coordinates differ), `<`
is exactly the causality of the coordinates, whatever the iteration order of sets. -/
theorem C42_distinct (c : α → α → Bool × Bool) (S : Set α) (hc : IsCausalOrder c S) (it : Iter) (C : Finset EId) (link : Bool)
    (w : World α) (v : w.heap.Valid) (lx : w.heap.LinksExact) (hex : ∀ e ∈ C, w.heap.Exists e) (hcl : Closed w.heap.Lt C)
    (pos : EId → α) (hpos : ∀ e ∈ C, w.crd e = some (pos e)) (hS : ∀ e ∈ C, pos e ∈ S)
    (hdist : ∀ a ∈ C, ∀ b ∈ C, a ≠ b → ¬ ((c (pos a) (pos b)).1 = true ∧ (c (pos b) (pos a)).1 = true)) :
    ∀ a ∈ C, ∀ b ∈ C, (relate c it C link w).2.heap.Lt a b ↔ a ≠ b ∧ (c (pos a) (pos b)).1 = true := by
  obtain ⟨w', e, -, -, -, -, -, -, -, ⟨L, hnd, memL, hL⟩, -⟩ := C42_causal_order c S hc it C link w v lx hex hcl pos hpos hS
  intro a ha b hb
  rw [e]
  dsimp only
  rw [hL a ha b hb]
  have hSL : ∀ e ∈ L, pos e ∈ S := fun e he => hS e ((memL e).1 he)
  constructor
  · intro hr
    refine ⟨?_, (hr.weak hc hSL).1⟩
    rintro rfl
    exact (RelOf.strictOrd hc hnd hSL).irrefl a hr
  · rintro ⟨hab, h1⟩
    refine RelOf.of_weak hc hnd hSL ((memL a).2 ha) ((memL b).2 hb) hab h1 (Or.inr ?_)
    have := hdist a ha b hb hab
    rw [Bool.eq_false_iff]
    exact fun h2 => this ⟨h1, h2⟩

/-! ## `create` -/

/-- the label `create` gives to the event number `n` -/
def mkLabel (fmt : Option (ℕ → String)) (n : ℕ) : Label := match fmt with
  | none => .int n
  | some f => .str (f n)

theorem createEvents_cons (it : Iter) (fmt : Option (ℕ → String)) (n : ℕ) (x : α) (xs : List α) (w : World α) :
    createEvents it fmt n (x :: xs) w =
      ((w.heap.newEvent it (some (mkLabel fmt n)) [] []).1 ::
        (createEvents it fmt (n + 1) xs ⟨(w.heap.newEvent it (some (mkLabel fmt n)) [] []).2,
          update w.crd (w.heap.newEvent it (some (mkLabel fmt n)) [] []).1 (some x)⟩).1,
       (createEvents it fmt (n + 1) xs ⟨(w.heap.newEvent it (some (mkLabel fmt n)) [] []).2,
          update w.crd (w.heap.newEvent it (some (mkLabel fmt n)) [] []).1 (some x)⟩).2) := by
  cases fmt <;> rfl

theorem createEvents_spec (it : Iter) (fmt : Option (ℕ → String)) : ∀ (xs : List α) (n : ℕ) (w : World α),
    (createEvents it fmt n xs w).1 = List.range' w.heap.next xs.length ∧
    FreshEvents w.heap (createEvents it fmt n xs w).2.heap xs.length (fun i => some (mkLabel fmt (n + i))) ∧
    (∀ i (hi : i < xs.length), (createEvents it fmt n xs w).2.crd (w.heap.next + i) = some xs[i]) ∧
    (∀ e, e < w.heap.next → (createEvents it fmt n xs w).2.crd e = w.crd e) := by
  intro xs
  induction xs with
  | nil =>
    intro n w
    refine ⟨rfl, ⟨rfl, ?_, ?_, ?_, ?_, ?_⟩, by simp, fun _ _ => rfl⟩ <;> intro x <;>
      rw [if_neg (by simp)] <;> rfl
  | cons x xs ih =>
    intro n w
    rw [createEvents_cons, newEvent_nil]
    dsimp only
    set w1 : World α := { heap := w.heap.alloc (some (mkLabel fmt n)) [] [], crd := update w.crd w.heap.next (some x) } with hw1
    obtain ⟨h1, h2, h3, h4⟩ := ih (n + 1) w1
    have hn : w1.heap.next = w.heap.next + 1 := rfl
    have key : ∀ {β : Type} (A g : ℕ → β) (d : ℕ → β),
        (∀ x, A x = if w.heap.next + 1 ≤ x ∧ x < w.heap.next + 1 + xs.length then d x else update g w.heap.next (d w.heap.next) x) →
        ∀ x, A x = if w.heap.next ≤ x ∧ x < w.heap.next + (xs.length + 1) then d x else g x := by
      intro β A g d hA x
      rw [hA]
      by_cases hx : x = w.heap.next
      · subst hx
        rw [if_neg (by omega), if_pos (by omega), Function.update_self]
      · rw [Function.update_of_ne hx]
        by_cases hx2 : w.heap.next + 1 ≤ x ∧ x < w.heap.next + 1 + xs.length
        · rw [if_pos hx2, if_pos (by omega)]
        · rw [if_neg hx2, if_neg (by omega)]
    refine ⟨?_, ⟨by rw [h2.next, hn, List.length_cons]; omega, ?_, ?_, ?_, ?_, ?_⟩, ?_, ?_⟩
    · rw [h1, hn, List.length_cons, List.range'_succ]
    · refine key _ w.heap.label (fun x => some (mkLabel fmt (n + (x - w.heap.next)))) fun y => ?_
      rw [h2.label y, hn]
      by_cases hx2 : w.heap.next + 1 ≤ y ∧ y < w.heap.next + 1 + xs.length
      · rw [if_pos hx2, if_pos hx2]; congr 2; omega
      · rw [if_neg hx2, if_neg hx2]; simp [hw1, alloc]
    · exact key _ w.heap.prec (fun _ => ∅) fun y => h2.prec y
    · exact key _ w.heap.succ (fun _ => ∅) fun y => h2.succ y
    · exact key _ w.heap.lprec (fun _ => none) fun y => h2.lprec y
    · exact key _ w.heap.lsucc (fun _ => none) fun y => h2.lsucc y
    · intro i hi
      cases i with
      | zero =>
        refine (h4 w.heap.next (by rw [hn]; omega)).trans ?_
        simp [hw1]
      | succ i =>
        have := h3 i (by simpa using hi)
        rw [hn] at this
        rw [show w.heap.next + (i + 1) = w.heap.next + 1 + i by omega, this]
        simp
    · intro e he
      rw [h4 e (by rw [hn]; omega)]
      simp only [hw1]
      rw [Function.update_of_ne (by omega)]

theorem FreshEvents.valid {h h1 : Heap} {n : ℕ} {lab : ℕ → Option Label} (f : FreshEvents h h1 n lab) (v : h.Valid)
    (lx : h.LinksExact) : h1.Valid ∧ h1.LinksExact ∧ (∀ a b, h1.Lt a b ↔ h.Lt a b) := by
  have hp : ∀ a b, a ∈ h1.prec b ↔ h.Lt a b := by
    intro a b
    rw [f.prec]
    split
    · next hb =>
      simp only [Finset.notMem_empty, false_iff]
      intro hab
      have := (v.exists_of_lt a b hab).2
      unfold Heap.Exists at this
      omega
    · exact v.past_eq a b
  have hLt : ∀ a b, h1.Lt a b ↔ h.Lt a b := fun a b => by
    rw [← hp a b]; unfold Heap.Lt Heap.lt; simp
  have hLt' : h1.Lt = h.Lt := by funext a b; exact propext (hLt a b)
  refine ⟨⟨?_, fun a b => ?_, fun a b => ?_, fun a b hab => ?_⟩, ⟨fun e s hs x => ?_, fun e s hs x => ?_, fun e => ?_⟩, hLt⟩
  · rw [hLt']; exact v.order
  · rw [hLt]; exact hp a b
  · rw [hLt]
    show b ∈ h1.succ a ↔ _
    rw [f.succ]
    split
    · next hb =>
      simp only [Finset.notMem_empty, false_iff]
      intro hab
      have := (v.exists_of_lt a b hab).1
      unfold Heap.Exists at this
      omega
    · exact v.future_eq a b
  · rw [hLt] at hab
    have := v.exists_of_lt a b hab
    unfold Heap.Exists at *
    rw [f.next]; omega
  · rw [f.lprec] at hs
    split at hs
    · simp at hs
    · rw [hLt']; exact lx.past e s hs x
  · rw [f.lsucc] at hs
    split at hs
    · simp at hs
    · rw [hLt']; exact lx.future e s hs x
  · rw [f.lprec, f.lsucc]
    split
    · simp
    · exact lx.both e

/-- **C46.** `create(coordinates)` on a causet of events with coordinates, in any spacetime (any causality function): it adds and returns exactly
one new event per coordinate vector; they carry these coordinates and the labels `Card + 1, Card + 2, ...` (or these numbers
formatted); all events of the causet stay, and labels and coordinates of all older events are unchanged. -/
theorem C46_create (c : α → α → Bool × Bool) (it : Iter) (C : Finset EId) (coords : List α) (fmt : Option (ℕ → String))
    (doRelate : Bool) (w : World α) (hex : ∀ e ∈ C, w.heap.Exists e) (hemb : ∀ e ∈ C, (w.crd e).isSome) :
    let r := create c it C coords fmt doRelate w
    ∃ ids : List EId, ids.length = coords.length ∧ ids.Nodup ∧ r.2.1 = ids.toFinset ∧ r.1 = C ∪ ids.toFinset ∧
      (∀ e ∈ ids, ¬ w.heap.Exists e ∧ r.2.2.2.heap.Exists e) ∧
      (∀ i e, ids[i]? = some e → r.2.2.2.heap.label e = some (mkLabel fmt (C.card + 1 + i)) ∧ r.2.2.2.crd e = coords[i]?) ∧
      (∀ e, w.heap.Exists e → r.2.2.2.heap.Exists e ∧ r.2.2.2.heap.label e = w.heap.label e ∧ r.2.2.2.crd e = w.crd e) := by
  intro r
  obtain ⟨h1, h2, h3, h4⟩ := createEvents_spec it fmt coords (C.card + 1) w
  have hr : r.2.1 = (createEvents it fmt (C.card + 1) coords w).1.toFinset ∧
      r.1 = C ∪ (createEvents it fmt (C.card + 1) coords w).1.toFinset ∧
      r.2.2.2.heap.label = (createEvents it fmt (C.card + 1) coords w).2.heap.label ∧
      r.2.2.2.heap.next = (createEvents it fmt (C.card + 1) coords w).2.heap.next ∧
      r.2.2.2.crd = (createEvents it fmt (C.card + 1) coords w).2.crd := by
    have hd : r = create c it C coords fmt doRelate w := rfl
    unfold create at hd
    dsimp only at hd
    cases doRelate with
    | false =>
      simp only [Bool.false_eq_true, if_false] at hd
      rw [hd]; exact ⟨rfl, rfl, rfl, rfl, rfl⟩
    | true =>
      simp only [if_true] at hd
      rw [hd]
      dsimp only
      refine ⟨rfl, rfl, ?_⟩
      set C' := C ∪ (createEvents it fmt (C.card + 1) coords w).1.toFinset
      set w1 := (createEvents it fmt (C.card + 1) coords w).2
      have hsome : ∀ e ∈ C', (w1.crd e).isSome := by
        intro e he
        rcases Finset.mem_union.1 he with he | he
        · rw [h4 e (hex e he)]; exact hemb e he
        · rw [List.mem_toFinset, h1, List.mem_range'_1] at he
          obtain ⟨k, hk⟩ : ∃ k, e = w.heap.next + k := ⟨e - w.heap.next, by omega⟩
          rw [hk, h3 k (by omega)]; rfl
      by_cases hα : Nonempty α
      · have hpos : ∀ e ∈ C', w1.crd e = some ((w1.crd e).getD hα.some) := fun e he => by
          obtain ⟨x, hx⟩ := Option.isSome_iff_exists.1 (hsome e he)
          rw [hx]; rfl
        obtain ⟨g, g1, g2, g3, g4, g5, g6, g7⟩ := relate_loops c it C' w1 (fun e => (w1.crd e).getD hα.some) hpos
        unfold relate
        rw [g1]
        dsimp only
        have so := causetLink_sameOrder it C' g
        simp only [if_true]
        exact ⟨so.label.trans g3, so.next.trans g2, trivial⟩
      · -- without coordinate vectors the causet is empty
        have hC' : C' = ∅ := by
          rw [Finset.eq_empty_iff_forall_notMem]
          intro e he
          obtain ⟨x, hx⟩ := Option.isSome_iff_exists.1 (hsome e he)
          exact hα ⟨x⟩
        have e0 : ∀ k, it.ord k (∅ : Finset ℕ) = [] := fun k => by
          rw [List.eq_nil_iff_forall_not_mem]; intro x hx; rw [it.mem] at hx; simp at hx
        unfold relate
        rw [hC', e0, e0]
        simp only [relateRows, relateClear, if_true]
        have so := causetLink_sameOrder it ∅ w1.heap
        exact ⟨so.label, so.next, trivial⟩
  obtain ⟨r1, r2, r3, r4, r5⟩ := hr
  refine ⟨(createEvents it fmt (C.card + 1) coords w).1, by rw [h1]; simp, by rw [h1]; exact List.nodup_range', r1, r2, ?_, ?_, ?_⟩
  · intro e he
    rw [h1, List.mem_range'_1] at he
    unfold Heap.Exists
    rw [r4, h2.next]
    omega
  · intro i e hi
    rw [h1] at hi
    obtain ⟨hi1, rfl⟩ := List.getElem?_eq_some_iff.1 hi
    rw [List.length_range'] at hi1
    rw [List.getElem_range', Nat.one_mul, r3, r5, h2.label, if_pos (by omega), h3 i hi1]
    constructor
    · congr 2; omega
    · simp [hi1]
  · intro e he
    unfold Heap.Exists at *
    rw [r4, r3, r5, h2.next, h2.label, if_neg (by omega), h4 e he]
    exact ⟨by omega, rfl, rfl⟩

/-- **Specification.** The causet after a sequence of `create` calls (default labels) on a new causet in a new program. -/
def runCreates (c : α → α → Bool × Bool) (it : Iter) : List (List α) → Finset EId × World α
  | [] => (∅, { heap := Heap.empty, crd := fun _ => none })
  | xs :: before =>
    let s := runCreates c it before
    let r := create c it s.1 xs none true s.2
    (r.1, r.2.2.2)

/-- **C46, histories.** After every sequence of `create` calls with default labels the labels of the causet are exactly `1, ..., Card`, each once
(and all its events exist and have coordinates). -/
theorem C46_labels_distinct (c : α → α → Bool × Bool) (it : Iter) (calls : List (List α)) :
    let s := runCreates c it calls
    s.1.card = (calls.map List.length).sum ∧
    (∀ e ∈ s.1, s.2.heap.Exists e ∧ (s.2.crd e).isSome) ∧
    (∀ e ∈ s.1, ∃ n : ℕ, 1 ≤ n ∧ n ≤ s.1.card ∧ s.2.heap.label e = some (.int n)) ∧
    (∀ e ∈ s.1, ∀ e' ∈ s.1, s.2.heap.label e = s.2.heap.label e' → e = e') := by
  induction calls with
  | nil => refine ⟨rfl, ?_, ?_, ?_⟩ <;> simp [runCreates]
  | cons xs before ih =>
    set s := runCreates c it before with hs
    obtain ⟨i1, i2, i3, i4⟩ := ih
    have hrun : runCreates c it (xs :: before) = ((create c it s.1 xs none true s.2).1, (create c it s.1 xs none true s.2).2.2.2) := by
      rw [runCreates, ← hs]
    rw [hrun]
    dsimp only
    obtain ⟨ids, k1, k2, k3, k4, k5, k6, k7⟩ := C46_create c it s.1 xs none true s.2 (fun e he => (i2 e he).1) (fun e he => (i2 e he).2)
    have hdisj : Disjoint s.1 ids.toFinset := by
      rw [Finset.disjoint_left]
      intro e he he'
      exact (k5 e (List.mem_toFinset.1 he')).1 (i2 e he).1
    have hcard : (create c it s.1 xs none true s.2).1.card = s.1.card + xs.length := by
      rw [k4, Finset.card_union_of_disjoint hdisj, List.toFinset_card_of_nodup k2, k1]
    have hnew : ∀ e ∈ ids, ∃ i < xs.length, ids[i]? = some e ∧
        (create c it s.1 xs none true s.2).2.2.2.heap.label e = some (.int ((s.1.card + 1 + i : ℕ) : ℤ)) ∧
        (create c it s.1 xs none true s.2).2.2.2.crd e = xs[i]? := by
      intro e he
      obtain ⟨i, hi⟩ := List.mem_iff_getElem?.1 he
      have := k6 i e hi
      obtain ⟨hi', -⟩ := List.getElem?_eq_some_iff.1 hi
      exact ⟨i, by omega, hi, this.1, this.2⟩
    refine ⟨by rw [hcard, i1]; simp; omega, fun e he => ?_, fun e he => ?_, fun e he e' he' hee => ?_⟩
    · rw [k4, Finset.mem_union] at he
      rcases he with he | he
      · have := k7 e (i2 e he).1
        refine ⟨this.1, ?_⟩
        rw [this.2.2]; exact (i2 e he).2
      · rw [List.mem_toFinset] at he
        obtain ⟨i, hi, -, -, h2⟩ := hnew e he
        refine ⟨(k5 e he).2, ?_⟩
        rw [h2]; simp [hi]
    · rw [hcard]
      rw [k4, Finset.mem_union] at he
      rcases he with he | he
      · obtain ⟨n, h1, h2, h3⟩ := i3 e he
        exact ⟨n, h1, by omega, by rw [(k7 e (i2 e he).1).2.1]; exact h3⟩
      · rw [List.mem_toFinset] at he
        obtain ⟨i, hi, -, h2, -⟩ := hnew e he
        exact ⟨s.1.card + 1 + i, by omega, by omega, h2⟩
    · rw [k4, Finset.mem_union] at he he'
      have hold : ∀ x ∈ s.1, ∃ n : ℕ, n ≤ s.1.card ∧ (create c it s.1 xs none true s.2).2.2.2.heap.label x = some (.int n) := fun x hx => by
        obtain ⟨n, -, h2, h3⟩ := i3 x hx
        exact ⟨n, h2, by rw [(k7 x (i2 x hx).1).2.1]; exact h3⟩
      rcases he with he | he <;> rcases he' with he' | he'
      · refine i4 e he e' he' ?_
        rw [← (k7 e (i2 e he).1).2.1, ← (k7 e' (i2 e' he').1).2.1]; exact hee
      · obtain ⟨n, h1, h2⟩ := hold e he
        obtain ⟨i, -, -, h3, -⟩ := hnew e' (List.mem_toFinset.1 he')
        rw [h2, h3] at hee
        simp only [Option.some.injEq, Label.int.injEq] at hee
        omega
      · obtain ⟨n, h1, h2⟩ := hold e' he'
        obtain ⟨i, -, -, h3, -⟩ := hnew e (List.mem_toFinset.1 he)
        rw [h2, h3] at hee
        simp only [Option.some.injEq, Label.int.injEq] at hee
        omega
      · obtain ⟨i, -, hi, h3, -⟩ := hnew e (List.mem_toFinset.1 he)
        obtain ⟨j, -, hj, h4, -⟩ := hnew e' (List.mem_toFinset.1 he')
        rw [h3, h4] at hee
        simp only [Option.some.injEq, Label.int.injEq] at hee
        have : i = j := by omega
        subst this
        rw [hi] at hj
        simpa using hj

end Causets
