import Verif.Props.CreateOrder
import Verif.Props.Flat
import Mathlib.Logic.Equiv.Option
import Mathlib.Logic.Equiv.Fin.Basic

/-! # C128: creating events in several steps, or in another order, gives the same causal set

`runCreates c it calls` (the newest call first) is the causet after a sequence of `create` calls on a new causet. -/

namespace Causets

open Heap

variable {α : Type}

/-- **Specification.** For two points at different places of the list, "first after second" and "second before first" are the same answer. -/
def AnswersAgree (c : α → α → Bool × Bool) (T : List α) : Prop :=
  ∀ (i j : ℕ) (x y : α), i ≠ j → T[i]? = some x → T[j]? = some y → (c x y).2 = (c y x).1

/-- **Specification.** All points of a sequence of `create` calls (the newest call first), oldest first. -/
def createdPoints (calls : List (List α)) : List α := calls.reverse.flatten

/-- **Specification.** The causet `s` has exactly one event per point of `T`, created in this order, with the labels `1, 2, ...`, and its
relation is the causality of the points. -/
structure IsCausetOf (c : α → α → Bool × Bool) (T : List α) (s : Finset EId × World α) : Prop where
  next : s.2.heap.next = T.length
  events : ∀ e, e ∈ s.1 ↔ e < T.length
  crd : ∀ (i : ℕ) (x : α), T[i]? = some x → s.2.crd i = some x
  label : ∀ i, i < T.length → s.2.heap.label i = some (.int ((i + 1 : ℕ) : ℤ))
  lt : ∀ a b, s.2.heap.Lt a b ↔ a ≠ b ∧ ∃ x y, T[a]? = some x ∧ T[b]? = some y ∧ (c x y).1 = true
  future : ∀ a b, b ∈ s.2.heap.future a ↔ s.2.heap.Lt a b

theorem createdPoints_cons (xs : List α) (calls : List (List α)) :
    createdPoints (xs :: calls) = createdPoints calls ++ xs := by
  simp [createdPoints]

theorem AnswersAgree.prefix {c : α → α → Bool × Bool} {T U : List α} (h : AnswersAgree c (T ++ U)) : AnswersAgree c T := by
  intro i j x y hij hx hy
  have hi := (List.getElem?_eq_some_iff.1 hx).1
  have hj := (List.getElem?_eq_some_iff.1 hy).1
  exact h i j x y hij (by rw [List.getElem?_append_left hi]; exact hx) (by rw [List.getElem?_append_left hj]; exact hy)

/-- **C128, the closed form.** For any causality function whose two answers agree on the points: after any sequence of `create` calls the
causet has one event per point and its relation is the causality of the points, however the points were distributed over the calls. -/
theorem C128_state (c : α → α → Bool × Bool) (it : Iter) (calls : List (List α)) (hc : AnswersAgree c (createdPoints calls)) :
    IsCausetOf c (createdPoints calls) (runCreates c it calls) := by
  induction calls with
  | nil =>
    have hno : ∀ a b, ¬ Heap.empty.Lt a b := fun a b hab => by simp [Heap.Lt, Heap.lt, Heap.empty] at hab
    refine ⟨rfl, by simp [runCreates, createdPoints], by simp [createdPoints], by simp [createdPoints], fun a b => ?_, fun a b => ?_⟩
    · simp [runCreates, createdPoints, hno]
    · simp [runCreates, Heap.future, Heap.empty, Heap.Lt, Heap.lt]
  | cons xs calls ih =>
    rw [createdPoints_cons] at hc ⊢
    obtain ⟨n1, n2, n3, n4, n5, n6⟩ := ih hc.prefix
    set T := createdPoints calls with hT
    set s := runCreates c it calls with hs
    have hCard : s.1.card = T.length := by
      have : s.1 = Finset.range T.length := by ext e; rw [n2, Finset.mem_range]
      rw [this, Finset.card_range]
    obtain ⟨h1, h2, h3, h4⟩ := createEvents_spec it none xs (s.1.card + 1) s.2
    set w1 := (createEvents it none (s.1.card + 1) xs s.2).2 with hw1
    set C' := s.1 ∪ (createEvents it none (s.1.card + 1) xs s.2).1.toFinset with hC'
    have hrun : runCreates c it (xs :: calls) = (C', (relate c it C' true w1).2) := by
      rw [runCreates, ← hs]
      unfold create
      simp only [if_true, hC', hw1]
    have hmem : ∀ e, e ∈ C' ↔ e < (T ++ xs).length := by
      intro e
      rw [hC', Finset.mem_union, n2, h1, List.mem_toFinset, List.mem_range'_1, n1, List.length_append]
      omega
    have hcrd : ∀ (i : ℕ) (x : α), (T ++ xs)[i]? = some x → w1.crd i = some x := by
      intro i x hx
      by_cases hi : i < T.length
      · rw [h4 i (by omega)]
        rw [List.getElem?_append_left hi] at hx
        exact n3 i x hx
      · rw [List.getElem?_append_right (by omega)] at hx
        obtain ⟨hlt, he⟩ := List.getElem?_eq_some_iff.1 hx
        have := h3 (i - T.length) hlt
        rw [n1, he] at this
        rwa [show T.length + (i - T.length) = i by omega] at this
    rw [hrun]
    by_cases hα : Nonempty α
    · let pos : EId → α := fun e => ((T ++ xs)[e]?).getD hα.some
      have hget : ∀ e, e < (T ++ xs).length → (T ++ xs)[e]? = some (pos e) := by
        intro e he
        simp only [pos, List.getElem?_eq_getElem he, Option.getD_some]
      have hpos : ∀ e ∈ C', w1.crd e = some (pos e) := fun e he => hcrd e _ (hget e ((hmem e).1 he))
      obtain ⟨g, g1, g2, g3, g4, g5, g6, g7⟩ := relate_loops c it C' w1 pos hpos
      have so := causetLink_sameOrder it C' g
      have hrel : (relate c it C' true w1).2 = { w1 with heap := (causetLink it C' g).2 } := by
        unfold relate
        rw [g1]
        rfl
      rw [hrel]
      have hout : ∀ e, e ∉ C' → w1.heap.prec e = ∅ ∧ w1.heap.succ e = ∅ := by
        intro e he
        rw [hmem, List.length_append] at he
        have hp : s.2.heap.prec e = ∅ := by
          rw [Finset.eq_empty_iff_forall_notMem]
          intro a ha
          obtain ⟨-, x, y, -, hy, -⟩ := (n5 a e).1 (by unfold Heap.Lt Heap.lt; simpa using ha)
          have := (List.getElem?_eq_some_iff.1 hy).1
          omega
        have hq : s.2.heap.succ e = ∅ := by
          rw [Finset.eq_empty_iff_forall_notMem]
          intro a ha
          obtain ⟨-, x, y, hx, -, -⟩ := (n5 e a).1 ((n6 e a).1 ha)
          have := (List.getElem?_eq_some_iff.1 hx).1
          omega
        rw [h2.prec, h2.succ, hp, hq]
        simp
      have hRel : ∀ a b, RelOf c pos (it.ord [221] C') a b ↔
          a ≠ b ∧ ∃ x y, (T ++ xs)[a]? = some x ∧ (T ++ xs)[b]? = some y ∧ (c x y).1 = true := by
        intro a b
        have hnd := it.nodup [221] C'
        constructor
        · intro hr
          have hm := hr.mem
          have ha := hget a ((hmem a).1 hm.1)
          have hb := hget b ((hmem b).1 hm.2)
          rcases hr with ⟨k1, k2⟩ | ⟨k1, k2⟩
          · refine ⟨?_, _, _, ha, hb, k2⟩
            rintro rfl; exact before_irrefl hnd _ k1
          · have hne : a ≠ b := by rintro rfl; exact before_irrefl hnd _ k1
            exact ⟨hne, _, _, ha, hb, by rw [← hc b a _ _ hne.symm hb ha]; exact k2⟩
        · rintro ⟨hne, x, y, hx, hy, hxy⟩
          have ha := (List.getElem?_eq_some_iff.1 hx).1
          have hb := (List.getElem?_eq_some_iff.1 hy).1
          have hx' : pos a = x := by rw [hget a ha] at hx; simpa using hx
          have hy' : pos b = y := by rw [hget b hb] at hy; simpa using hy
          rcases before_total hnd ((it.mem _ _ _).2 ((hmem a).2 ha)) ((it.mem [221] _ _).2 ((hmem b).2 hb)) hne with hbf | hbf
          · exact Or.inl ⟨hbf, by rw [hx', hy']; exact hxy⟩
          · exact Or.inr ⟨hbf, by rw [hx', hy', hc b a y x hne.symm hy hx]; exact hxy⟩
      have hLt : ∀ a b, (causetLink it C' g).2.Lt a b ↔
          a ≠ b ∧ ∃ x y, (T ++ xs)[a]? = some x ∧ (T ++ xs)[b]? = some y ∧ (c x y).1 = true := by
        intro a b
        rw [so.Lt, ← hRel a b]
        have := g6 a b
        unfold Heap.Lt Heap.lt
        rw [decide_eq_true_iff, this]
        constructor
        · rintro (⟨k1, k2⟩ | k)
          · rw [(hout b k1).1] at k2; simp at k2
          · exact k
        · exact Or.inr
      refine ⟨?_, hmem, hcrd, fun i hi => ?_, hLt, fun a b => ?_⟩
      · show (causetLink it C' g).2.next = _
        rw [so.next, g2, h2.next, n1, List.length_append]
      · show (causetLink it C' g).2.label i = _
        rw [so.label, g3, h2.label, n1]
        rw [List.length_append] at hi
        split
        · rw [hCard]
          simp only [mkLabel]
          congr 2
          omega
        · exact n4 i (by omega)
      · show b ∈ (causetLink it C' g).2.succ a ↔ (causetLink it C' g).2.Lt a b
        rw [hLt, ← hRel, so.succ, g7]
        constructor
        · rintro (⟨k1, k2⟩ | k)
          · rw [(hout a k1).2] at k2; simp at k2
          · exact k
        · exact Or.inr
    · have hnil : T ++ xs = [] := by
        rw [List.eq_nil_iff_forall_not_mem]
        intro x hx
        exact hα ⟨x⟩
      have hTn : T = [] := (List.append_eq_nil_iff.1 hnil).1
      have hxn : xs = [] := (List.append_eq_nil_iff.1 hnil).2
      have hC0 : C' = ∅ := by
        rw [Finset.eq_empty_iff_forall_notMem]
        intro e he
        rw [hmem, hnil] at he
        simp at he
      have e0 : ∀ k, it.ord k (∅ : Finset ℕ) = [] := fun k => by
        rw [List.eq_nil_iff_forall_not_mem]; intro x hx; rw [it.mem] at hx; simp at hx
      have so := causetLink_sameOrder it ∅ w1.heap
      have hrel : (relate c it (∅ : Finset EId) true w1).2 = { w1 with heap := (causetLink it ∅ w1.heap).2 } := by
        unfold relate
        rw [e0, e0]
        simp only [relateRows, relateClear, if_true]
      rw [hC0, hrel, hnil]
      have hnx : s.2.heap.next = 0 := by rw [n1, hTn]; rfl
      have hpre : ∀ e, w1.heap.prec e = ∅ ∧ w1.heap.succ e = ∅ := by
        intro e
        have hp : s.2.heap.prec e = ∅ := by
          rw [Finset.eq_empty_iff_forall_notMem]
          intro a ha
          obtain ⟨-, x, -⟩ := (n5 a e).1 (by unfold Heap.Lt Heap.lt; simpa using ha)
          exact hα ⟨x⟩
        have hq : s.2.heap.succ e = ∅ := by
          rw [Finset.eq_empty_iff_forall_notMem]
          intro a ha
          obtain ⟨-, x, -⟩ := (n5 e a).1 ((n6 e a).1 ha)
          exact hα ⟨x⟩
        rw [h2.prec, h2.succ, hp, hq]
        simp
      have hLt : ∀ a b, ¬ (causetLink it ∅ w1.heap).2.Lt a b := by
        intro a b
        rw [so.Lt]
        unfold Heap.Lt Heap.lt
        rw [(hpre b).1]; simp
      refine ⟨?_, by simp, by simp, by simp, fun a b => ?_, fun a b => ?_⟩
      · show (causetLink it ∅ w1.heap).2.next = _
        rw [so.next, h2.next, hnx, hxn]; rfl
      · constructor
        · intro hab; exact absurd hab (hLt a b)
        · rintro ⟨-, x, -⟩; exact absurd ⟨x⟩ hα
      · show b ∈ (causetLink it ∅ w1.heap).2.succ a ↔ (causetLink it ∅ w1.heap).2.Lt a b
        rw [so.succ, (hpre a).2]
        constructor
        · intro hb; simp at hb
        · intro hab; exact absurd hab (hLt a b)

/-- **C128, steps.** Two sequences of `create` calls with the same points in the same order, split into calls in any way and run with any set
enumeration orders: the causets have the same events, labels, coordinates and the same relation, `Past` and `Future` sets. -/
theorem C128_steps (c : α → α → Bool × Bool) (it1 it2 : Iter) (calls1 calls2 : List (List α))
    (hT : createdPoints calls1 = createdPoints calls2) (hc : AnswersAgree c (createdPoints calls1)) :
    let s1 := runCreates c it1 calls1
    let s2 := runCreates c it2 calls2
    s1.1 = s2.1 ∧ (∀ e ∈ s1.1, s1.2.heap.label e = s2.2.heap.label e ∧ s1.2.crd e = s2.2.crd e) ∧
      (∀ a b, s1.2.heap.Lt a b ↔ s2.2.heap.Lt a b) ∧ (∀ e, s1.2.heap.past e = s2.2.heap.past e) ∧
      (∀ e, s1.2.heap.future e = s2.2.heap.future e) := by
  intro s1 s2
  have k1 : IsCausetOf c (createdPoints calls1) s1 := C128_state c it1 calls1 hc
  have k2 : IsCausetOf c (createdPoints calls1) s2 := by
    have := C128_state c it2 calls2 (hT ▸ hc)
    rwa [← hT] at this
  have hLt : ∀ a b, s1.2.heap.Lt a b ↔ s2.2.heap.Lt a b := fun a b => by rw [k1.lt, k2.lt]
  refine ⟨?_, fun e he => ⟨?_, ?_⟩, hLt, fun e => ?_, fun e => ?_⟩
  · ext e; rw [k1.events, k2.events]
  · rw [k1.events] at he
    rw [k1.label e he, k2.label e he]
  · rw [k1.events] at he
    rw [k1.crd e _ (List.getElem?_eq_getElem he), k2.crd e _ (List.getElem?_eq_getElem he)]
  · ext a
    have := hLt a e
    unfold Heap.Lt Heap.lt at this
    simpa [Heap.past] using this
  · ext b
    rw [k1.future, k2.future]; exact hLt e b

/-- a permutation of lists as a bijection of places -/
theorem perm_places {T U : List α} (h : T.Perm U) : ∃ σ : Fin T.length ≃ Fin U.length, ∀ i, U.get (σ i) = T.get i := by
  induction h with
  | nil => exact ⟨Equiv.refl _, fun i => rfl⟩
  | @cons x l1 l2 _ ih =>
    obtain ⟨σ, hσ⟩ := ih
    refine ⟨(finSuccEquiv l1.length).trans ((Equiv.optionCongr σ).trans (finSuccEquiv l2.length).symm), fun i => ?_⟩
    refine Fin.cases ?_ (fun j => ?_) i
    · simp
    · have := hσ j
      simpa using this
  | swap x y l =>
    refine ⟨Equiv.swap (⟨0, by simp⟩ : Fin (y :: x :: l).length) ⟨1, by simp⟩, fun i => ?_⟩
    by_cases h0 : i = ⟨0, by simp⟩
    · subst h0; rw [Equiv.swap_apply_left]; rfl
    · by_cases h1 : i = ⟨1, by simp⟩
      · subst h1; rw [Equiv.swap_apply_right]; rfl
      · rw [Equiv.swap_apply_of_ne_of_ne h0 h1]
        obtain ⟨i, hi⟩ := i
        match i, hi, h0, h1 with
        | 0, _, h0, _ => exact absurd rfl h0
        | 1, _, _, h1 => exact absurd rfl h1
        | k + 2, hi, _, _ => rfl
  | trans _ _ ih1 ih2 =>
    obtain ⟨σ, hσ⟩ := ih1
    obtain ⟨τ, hτ⟩ := ih2
    exact ⟨σ.trans τ, fun i => by rw [Equiv.trans_apply, hτ, hσ]⟩

theorem AnswersAgree.perm {c : α → α → Bool × Bool} {T U : List α} (hc : AnswersAgree c T) (h : T.Perm U) : AnswersAgree c U := by
  obtain ⟨σ, hσ⟩ := perm_places h
  intro i j x y hij hx hy
  obtain ⟨hi, hxi⟩ := List.getElem?_eq_some_iff.1 hx
  obtain ⟨hj, hyj⟩ := List.getElem?_eq_some_iff.1 hy
  have e1 := hσ (σ.symm ⟨i, hi⟩)
  have e2 := hσ (σ.symm ⟨j, hj⟩)
  rw [Equiv.apply_symm_apply] at e1 e2
  have n1 : (σ.symm ⟨i, hi⟩ : Fin T.length) ≠ σ.symm ⟨j, hj⟩ := fun hh => hij (by
    have := σ.symm.injective hh
    simpa using this)
  refine hc (σ.symm ⟨i, hi⟩) (σ.symm ⟨j, hj⟩) x y (fun hh => n1 (Fin.ext hh)) ?_ ?_
  · rw [List.getElem?_eq_some_iff]
    exact ⟨(σ.symm ⟨i, hi⟩).2, by rw [← hxi]; exact e1.symm⟩
  · rw [List.getElem?_eq_some_iff]
    exact ⟨(σ.symm ⟨j, hj⟩).2, by rw [← hyj]; exact e2.symm⟩

/-- **C128, order of creation.** If the points are created in another order (and split into other calls), the causets are the same up to the
identity and the labels of the events: there is a bijection of the events that keeps the coordinates and the causal relation. -/
theorem C128_order (c : α → α → Bool × Bool) (it1 it2 : Iter) (calls1 calls2 : List (List α))
    (hT : (createdPoints calls1).Perm (createdPoints calls2)) (hc : AnswersAgree c (createdPoints calls1)) :
    let s1 := runCreates c it1 calls1
    let s2 := runCreates c it2 calls2
    ∃ f : EId → EId, Set.BijOn f s1.1 s2.1 ∧ (∀ e ∈ s1.1, s2.2.crd (f e) = s1.2.crd e) ∧
      ∀ a ∈ s1.1, ∀ b ∈ s1.1, (s2.2.heap.Lt (f a) (f b) ↔ s1.2.heap.Lt a b) := by
  intro s1 s2
  have k1 : IsCausetOf c (createdPoints calls1) s1 := C128_state c it1 calls1 hc
  have k2 : IsCausetOf c (createdPoints calls2) s2 := C128_state c it2 calls2 (hc.perm hT)
  set T := createdPoints calls1
  set U := createdPoints calls2
  obtain ⟨σ, hσ⟩ := perm_places hT
  let f : EId → EId := fun e => if h : e < T.length then (σ ⟨e, h⟩ : ℕ) else 0
  have hf : ∀ e (h : e < T.length), f e = (σ ⟨e, h⟩ : ℕ) := fun e h => by simp only [f, dif_pos h]
  have hU : ∀ e (h : e < T.length), U[f e]? = T[e]? := by
    intro e h
    rw [hf e h, List.getElem?_eq_getElem (σ ⟨e, h⟩).2, List.getElem?_eq_getElem h]
    exact congrArg some (hσ ⟨e, h⟩)
  have hinj : ∀ a (ha : a < T.length) b (hb : b < T.length), f a = f b → a = b := by
    intro a ha b hb hab
    rw [hf a ha, hf b hb] at hab
    have := σ.injective (Fin.ext hab)
    simpa using this
  refine ⟨f, ⟨fun e he => ?_, fun a ha b hb hab => ?_, fun e he => ?_⟩, fun e he => ?_, fun a ha b hb => ?_⟩
  · have h := (k1.events e).1 (Finset.mem_coe.1 he)
    rw [Finset.mem_coe, k2.events, hf e h]
    exact (σ ⟨e, h⟩).2
  · exact hinj a ((k1.events a).1 (Finset.mem_coe.1 ha)) b ((k1.events b).1 (Finset.mem_coe.1 hb)) hab
  · have h := (k2.events e).1 (Finset.mem_coe.1 he)
    refine ⟨σ.symm ⟨e, h⟩, ?_, ?_⟩
    · rw [Finset.mem_coe, k1.events]; exact (σ.symm ⟨e, h⟩).2
    · rw [hf _ (σ.symm ⟨e, h⟩).2]; simp
  · have h := (k1.events e).1 he
    have := hU e h
    rw [List.getElem?_eq_getElem h] at this
    rw [k2.crd _ _ this, k1.crd e _ (List.getElem?_eq_getElem h)]
  · have h1 := (k1.events a).1 ha
    have h2 := (k1.events b).1 hb
    rw [k1.lt, k2.lt, hU a h1, hU b h2]
    have : f a ≠ f b ↔ a ≠ b := not_congr ⟨hinj a h1 b h2, fun h => by rw [h]⟩
    rw [this]

/-- **C128, causal orders.** If the causality function describes a causal order on the points and no two of them precede each other, its two
answers agree. -/
theorem C128_agree (c : α → α → Bool × Bool) (S : Set α) (hc : IsCausalOrder c S) (T : List α) (hS : ∀ x ∈ T, x ∈ S)
    (hd : T.Pairwise fun x y => ¬ ((c x y).1 = true ∧ (c y x).1 = true)) : AnswersAgree c T := by
  have key : ∀ (i j : ℕ) (x y : α), i < j → T[i]? = some x → T[j]? = some y → ¬ ((c x y).1 = true ∧ (c y x).1 = true) := by
    intro i j x y hij hx hy
    obtain ⟨hi, hxi⟩ := List.getElem?_eq_some_iff.1 hx
    obtain ⟨hj, hyj⟩ := List.getElem?_eq_some_iff.1 hy
    have := List.pairwise_iff_getElem.1 hd i j hi hj hij
    rwa [hxi, hyj] at this
  intro i j x y hij hx hy
  have hn : ¬ ((c x y).1 = true ∧ (c y x).1 = true) := by
    rcases lt_or_gt_of_ne hij with h | h
    · exact key i j x y h hx hy
    · exact fun hh => key j i y x h hy hx hh.symm
  have := hc.after x (hS x (List.mem_of_getElem? hx)) y (hS y (List.mem_of_getElem? hy))
  rw [Bool.eq_iff_iff, this]
  constructor
  · exact fun h => h.1
  · refine fun h => ⟨h, ?_⟩
    by_contra h'
    exact hn ⟨by simpa using h', h⟩

/-- **C128, links.** For a causal order the link sets are the same too. -/
theorem C128_links (c : α → α → Bool × Bool) (S : Set α) (hc : IsCausalOrder c S) (it1 it2 : Iter) (calls1 calls2 : List (List α))
    (hT : createdPoints calls1 = createdPoints calls2) (hS : ∀ x ∈ createdPoints calls1, x ∈ S)
    (hd : (createdPoints calls1).Pairwise fun x y => ¬ ((c x y).1 = true ∧ (c y x).1 = true)) :
    let s1 := runCreates c it1 calls1
    let s2 := runCreates c it2 calls2
    ∀ e ∈ s1.1, (s1.2.heap.lprec e).isSome ∧ s1.2.heap.lprec e = s2.2.heap.lprec e ∧ s1.2.heap.lsucc e = s2.2.heap.lsucc e := by
  intro s1 s2 e he
  have mem : ∀ calls : List (List α), (∀ x ∈ createdPoints calls, x ∈ S) → ∀ xs ∈ calls, ∀ x ∈ xs, x ∈ S := by
    intro calls h xs hxs x hx
    exact h x (by unfold createdPoints; rw [List.mem_flatten]; exact ⟨xs, List.mem_reverse.2 hxs, hx⟩)
  obtain ⟨h1, -, h3, -, -⟩ := C128_steps c it1 it2 calls1 calls2 hT (C128_agree c S hc _ hS hd)
  obtain ⟨-, l1, -, -, b1, -⟩ := C42_history c S hc it1 calls1 (mem calls1 hS)
  obtain ⟨-, l2, -, -, b2, -⟩ := C42_history c S hc it2 calls2 (mem calls2 (hT ▸ hS))
  have hLt : s1.2.heap.Lt = s2.2.heap.Lt := by funext a b; exact propext (h3 a b)
  have g1 := b1 e he
  have g2 := b2 e (h1 ▸ he)
  unfold Heap.hasBeenLinked at g1 g2
  rw [Bool.and_eq_true, Option.isSome_iff_exists, Option.isSome_iff_exists] at g1 g2
  obtain ⟨⟨p1, q1⟩, ⟨p2, q2⟩⟩ := g1
  obtain ⟨⟨p3, q3⟩, ⟨p4, q4⟩⟩ := g2
  refine ⟨?_, ?_, ?_⟩
  · show (s1.2.heap.lprec e).isSome
    have : s1.2.heap.lprec e = some p1 := q1
    rw [this]; rfl
  · have e1 : s1.2.heap.lprec e = some p1 := q1
    have e2 : s2.2.heap.lprec e = some p3 := q3
    rw [e1, e2]
    congr 1
    ext x
    rw [l1.past e p1 q1 x, l2.past e p3 q3 x]
    show Covers s1.2.heap.Lt x e ↔ Covers s2.2.heap.Lt x e
    rw [hLt]
  · have e1 : s1.2.heap.lsucc e = some p2 := q2
    have e2 : s2.2.heap.lsucc e = some p4 := q4
    rw [e1, e2]
    congr 1
    ext x
    rw [l1.future e p2 q2 x, l2.future e p4 q4 x]
    show Covers s1.2.heap.Lt e x ↔ Covers s2.2.heap.Lt e x
    rw [hLt]

/-- **C128, Minkowski with any tolerance.** In flat spacetime of any dimension, whatever the tolerance, the answers agree on points at
pairwise different times. -/
theorem C128_flat (eps : ℝ) (dim : ℕ) (T : List Point) (hd : T.Pairwise fun x y => x 0 ≠ y 0) : AnswersAgree (causalityFlat eps dim) T := by
  have key : ∀ (i j : ℕ) (x y : Point), i < j → T[i]? = some x → T[j]? = some y → x 0 ≠ y 0 := by
    intro i j x y hij hx hy
    obtain ⟨hi, hxi⟩ := List.getElem?_eq_some_iff.1 hx
    obtain ⟨hj, hyj⟩ := List.getElem?_eq_some_iff.1 hy
    have := List.pairwise_iff_getElem.1 hd i j hi hj hij
    rwa [hxi, hyj] at this
  intro i j x y hij hx hy
  have hne : x 0 ≠ y 0 := by
    rcases lt_or_gt_of_ne hij with h | h
    · exact key i j x y h hx hy
    · exact (key j i y x h hy hx).symm
  have hs : spaceSq dim x y = spaceSq dim y x := by
    unfold spaceSq
    exact Finset.sum_congr rfl fun i _ => by ring
  have ht : (y 0 - x 0 < 0) ↔ (x 0 - y 0 ≥ 0) :=
    ⟨fun h => by linarith, fun h => lt_of_le_of_ne (by linarith) (fun h' => hne (by linarith))⟩
  have hq : (y 0 - x 0) ^ 2 = (x 0 - y 0) ^ 2 := by ring
  unfold causalityFlat
  simp only [hs, ht, hq]

/-- The hypotheses are met: three points of the plane with different times, created in two calls. -/
example : AnswersAgree (causalityFlat (1 / 1000) 2)
    (createdPoints [[fun i => if i = 0 then 2 else 0], [fun i => if i = 0 then 0 else 0, fun i => if i = 0 then 1 else 1 / 2]]) := by
  refine C128_flat _ _ _ ?_
  simp [createdPoints]

end Causets
