import Verif.Props.CreateSteps

/-! # C129: creating further events leaves the relations of the existing events unchanged -/

namespace Causets

open Heap

variable {α : Type}

/-- **C129, relations.** After further `create` calls (`more`, newest first) all events of the causet are still there with their labels and
coordinates; two of them are related as before; the past and future of an event only grow by new events. -/
theorem C129_more (c : α → α → Bool × Bool) (it1 it2 : Iter) (more calls : List (List α))
    (hc : AnswersAgree c (createdPoints (more ++ calls))) :
    let s1 := runCreates c it1 calls
    let s2 := runCreates c it2 (more ++ calls)
    s1.1 ⊆ s2.1 ∧ (∀ e ∈ s1.1, s2.2.heap.label e = s1.2.heap.label e ∧ s2.2.crd e = s1.2.crd e) ∧
      (∀ a ∈ s1.1, ∀ b ∈ s1.1, (s2.2.heap.Lt a b ↔ s1.2.heap.Lt a b)) ∧
      (∀ e ∈ s1.1, s2.2.heap.past e ∩ s1.1 = s1.2.heap.past e) ∧ (∀ e ∈ s1.1, s2.2.heap.future e ∩ s1.1 = s1.2.heap.future e) := by
  intro s1 s2
  have hsplit : createdPoints (more ++ calls) = createdPoints calls ++ createdPoints more := by
    simp [createdPoints]
  rw [hsplit] at hc
  have k1 : IsCausetOf c (createdPoints calls) s1 := C128_state c it1 calls hc.prefix
  have k2 : IsCausetOf c (createdPoints calls ++ createdPoints more) s2 := by
    have := C128_state c it2 (more ++ calls) (hsplit ▸ hc)
    rwa [hsplit] at this
  set T := createdPoints calls
  set U := createdPoints more
  have hget : ∀ e, e < T.length → (T ++ U)[e]? = T[e]? := fun e he => List.getElem?_append_left he
  have hLt : ∀ a ∈ s1.1, ∀ b ∈ s1.1, (s2.2.heap.Lt a b ↔ s1.2.heap.Lt a b) := by
    intro a ha b hb
    rw [k1.lt, k2.lt, hget a ((k1.events a).1 ha), hget b ((k1.events b).1 hb)]
  have hmem : ∀ a b, s1.2.heap.Lt a b → a ∈ s1.1 ∧ b ∈ s1.1 := by
    intro a b hab
    obtain ⟨-, x, y, hx, hy, -⟩ := (k1.lt a b).1 hab
    exact ⟨(k1.events a).2 (List.getElem?_eq_some_iff.1 hx).1, (k1.events b).2 (List.getElem?_eq_some_iff.1 hy).1⟩
  refine ⟨fun e he => ?_, fun e he => ⟨?_, ?_⟩, hLt, fun e he => ?_, fun e he => ?_⟩
  · rw [k2.events, List.length_append]
    have := (k1.events e).1 he
    omega
  · have h := (k1.events e).1 he
    rw [k1.label e h, k2.label e (by rw [List.length_append]; omega)]
  · have h := (k1.events e).1 he
    have hx := List.getElem?_eq_getElem h
    rw [k1.crd e _ hx, k2.crd e _ ((hget e h).trans hx)]
  · ext a
    have p1 : a ∈ s1.2.heap.past e ↔ s1.2.heap.Lt a e := by unfold Heap.Lt Heap.lt Heap.past; simp
    have p2 : a ∈ s2.2.heap.past e ↔ s2.2.heap.Lt a e := by unfold Heap.Lt Heap.lt Heap.past; simp
    rw [Finset.mem_inter, p1, p2]
    constructor
    · rintro ⟨h1, h2⟩; exact (hLt a h2 e he).1 h1
    · intro h1; exact ⟨(hLt a (hmem a e h1).1 e he).2 h1, (hmem a e h1).1⟩
  · ext b
    rw [Finset.mem_inter, k1.future, k2.future]
    constructor
    · rintro ⟨h1, h2⟩; exact (hLt e he b h2).1 h1
    · intro h1; exact ⟨(hLt e he b (hmem e b h1).2).2 h1, (hmem e b h1).2⟩

/-- **C129, links.** Two old events are linked after the calls exactly if they were linked before and no new event lies between them. -/
theorem C129_links (c : α → α → Bool × Bool) (S : Set α) (hc : IsCausalOrder c S) (it1 it2 : Iter) (more calls : List (List α))
    (hS : ∀ x ∈ createdPoints (more ++ calls), x ∈ S)
    (hd : (createdPoints (more ++ calls)).Pairwise fun x y => ¬ ((c x y).1 = true ∧ (c y x).1 = true)) :
    let s1 := runCreates c it1 calls
    let s2 := runCreates c it2 (more ++ calls)
    ∀ a ∈ s1.1, ∀ b ∈ s1.1, ∃ l1 l2, s1.2.heap.lprec b = some l1 ∧ s2.2.heap.lprec b = some l2 ∧
      (a ∈ l2 ↔ a ∈ l1 ∧ ¬ ∃ e ∈ s2.1, e ∉ s1.1 ∧ s2.2.heap.Lt a e ∧ s2.2.heap.Lt e b) := by
  intro s1 s2 a ha b hb
  have mem : ∀ cs : List (List α), (∀ x ∈ createdPoints cs, x ∈ S) → ∀ xs ∈ cs, ∀ x ∈ xs, x ∈ S := by
    intro cs h xs hxs x hx
    exact h x (by unfold createdPoints; rw [List.mem_flatten]; exact ⟨xs, List.mem_reverse.2 hxs, hx⟩)
  have hS1 : ∀ x ∈ createdPoints calls, x ∈ S := fun x hx => hS x (by simp [createdPoints] at hx ⊢; exact Or.inl hx)
  have hag := C128_agree c S hc _ hS hd
  obtain ⟨h1, -, h3, -, -⟩ := C129_more c it1 it2 more calls hag
  obtain ⟨v1, l1, e1, -, b1, -⟩ := C42_history c S hc it1 calls (mem calls hS1)
  obtain ⟨v2, l2, e2, cl2, b2, -⟩ := C42_history c S hc it2 (more ++ calls) (mem (more ++ calls) hS)
  have g1 := b1 b hb
  have g2 := b2 b (h1 hb)
  unfold Heap.hasBeenLinked at g1 g2
  rw [Bool.and_eq_true, Option.isSome_iff_exists, Option.isSome_iff_exists] at g1 g2
  obtain ⟨⟨p1, q1⟩, -⟩ := g1
  obtain ⟨⟨p2, q2⟩, -⟩ := g2
  refine ⟨p1, p2, q1, q2, ?_⟩
  rw [l1.past b p1 q1 a, l2.past b p2 q2 a]
  show Covers s2.2.heap.Lt a b ↔ Covers s1.2.heap.Lt a b ∧ _
  have hin1 : ∀ x, s1.2.heap.Lt a x → x ∈ s1.1 := fun x hx => by
    obtain ⟨-, -, -, cl1, -, -⟩ := C42_history c S hc it1 calls (mem calls hS1)
    exact cl1 a ha x (Or.inl hx)
  unfold Covers
  constructor
  · rintro ⟨k1, k2⟩
    refine ⟨⟨(h3 a ha b hb).1 k1, ?_⟩, ?_⟩
    · rintro x ⟨hx1, hx2⟩
      have hx := hin1 x hx1
      exact k2 x ⟨(h3 a ha x hx).2 hx1, (h3 x hx b hb).2 hx2⟩
    · rintro ⟨e, -, -, he1, he2⟩
      exact k2 e ⟨he1, he2⟩
  · rintro ⟨⟨k1, k2⟩, k3⟩
    refine ⟨(h3 a ha b hb).2 k1, ?_⟩
    rintro x ⟨hx1, hx2⟩
    by_cases hx : x ∈ s1.1
    · exact k2 x ⟨(h3 a ha x hx).1 hx1, (h3 x hx b hb).1 hx2⟩
    · exact k3 ⟨x, cl2 a (h1 ha) x (Or.inl hx1), hx, hx1, hx2⟩

/-- The hypotheses are met: in Minkowski spacetime of dimension 3 the middle point of a chain is created after its ends. -/
example : ∃ (S : Set Point) (more calls : List (List Point)), IsCausalOrder ((⟨3, false, none⟩ : FlatSpacetime).causality 0) S ∧
    (∀ x ∈ createdPoints (more ++ calls), x ∈ S) ∧ more ≠ [] ∧ calls ≠ [] ∧
    (createdPoints (more ++ calls)).Pairwise fun x y => ¬ (((⟨3, false, none⟩ : FlatSpacetime).causality 0 x y).1 = true ∧
      ((⟨3, false, none⟩ : FlatSpacetime).causality 0 y x).1 = true) := by
  have hdir : ∀ x y : Point, ((⟨3, false, none⟩ : FlatSpacetime).causality 0 x y).1 = true → x 0 ≤ y 0 :=
    fun x y h => (C43_directions 0 _ x y).2.2.1 h
  refine ⟨Set.univ, [[fun i => if i = 0 then 1 else 0]], [[fun i => if i = 0 then 0 else 0, fun i => if i = 0 then 2 else 0]],
    C43_causal_order _ (by norm_num) _ ?_, fun _ _ => Set.mem_univ _, by simp, by simp, ?_⟩
  · intro x _ y _ i _ _ h3
    simp [FlatSpacetime.periods] at h3
  · have hne : ∀ x y : Point, x 0 ≠ y 0 → ¬ (((⟨3, false, none⟩ : FlatSpacetime).causality 0 x y).1 = true ∧
        ((⟨3, false, none⟩ : FlatSpacetime).causality 0 y x).1 = true) :=
      fun x y h hh => h (le_antisymm (hdir x y hh.1) (hdir y x hh.2))
    simp only [createdPoints, List.cons_append, List.nil_append, List.reverse_cons, List.reverse_nil, List.flatten_cons,
      List.flatten_nil, List.append_nil, List.pairwise_cons, List.mem_cons, List.not_mem_nil, or_false, List.Pairwise.nil, and_true,
      forall_eq_or_imp, forall_eq]
    refine ⟨⟨hne _ _ (by norm_num), hne _ _ (by norm_num)⟩, hne _ _ (by norm_num), ?_⟩
    intro a h; exact absurd h (by simp)

end Causets
