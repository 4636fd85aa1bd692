import Verif.Model.Iterables
import Verif.Props.Schedule
import Verif.Props.Matrix

/-! # C92 — arguments documented as `Iterable` -/

namespace Causets

open Heap

variable {h : Heap}

theorem mergeArgsLoop_again (l : List EId) : ∀ (ps : List EId) (h : Heap), (mergeArgsLoop ps (.again l) h).1 = .again l ∧
    (mergeArgsLoop ps (.again l) h).2.next = h.next ∧ (mergeArgsLoop ps (.again l) h).2.label = h.label ∧
    (∀ a b, a ∈ (mergeArgsLoop ps (.again l) h).2.prec b ↔ a ∈ h.prec b ∨ (a ∈ ps ∧ b ∈ l)) ∧
    (∀ a b, b ∈ (mergeArgsLoop ps (.again l) h).2.succ a ↔ b ∈ h.succ a ∨ (a ∈ ps ∧ b ∈ l)) := by
  intro ps
  induction ps with
  | nil => intro h; simp [mergeArgsLoop]
  | cons p ps ih =>
    intro h
    obtain ⟨a1, a2, a3, a4⟩ := mergeInner_fields p l h
    obtain ⟨b0, b1, b2, b3, b4⟩ := ih (mergeInner p l h)
    simp only [mergeArgsLoop, Arg.rest, Arg.items]
    refine ⟨b0, b1.trans a1, b2.trans a2, fun a b => ?_, fun a b => ?_⟩
    · rw [b3, a3, List.mem_cons, or_and_right, or_assoc]
    · rw [b4, a4, List.mem_cons, or_and_right, or_assoc]

theorem mergeArgsLoop_once_nil : ∀ (ps : List EId) (h : Heap), mergeArgsLoop ps (.once []) h = (.once [], h) := by
  intro ps
  induction ps with
  | nil => intro h; rfl
  | cons p ps ih => intro h; simp only [mergeArgsLoop, Arg.rest, Arg.items, mergeInner]; exact ih h

/-- **C92, `CausetEvent`.** The new event and the state after the construction depend on the `past` and `future` arguments only by the sets of events they contain: lists with repetitions
and iterators that yield their events once are as good as sets. -/
theorem C92_event (it it' : Iter) (v : h.Valid) (l : Option Label) (P P' F F' : List EId) (hP : ∀ p ∈ P, h.Exists p) (hF : ∀ f ∈ F, h.Exists f)
    (eP : P.toFinset = P'.toFinset) (eF : F.toFinset = F'.toFinset) : h.newEvent it l P F = h.newEvent it' l P' F' := by
  have mP : ∀ x, x ∈ P ↔ x ∈ P' := fun x => by rw [← List.mem_toFinset, eP, List.mem_toFinset]
  have mF : ∀ x, x ∈ F ↔ x ∈ F' := fun x => by rw [← List.mem_toFinset, eF, List.mem_toFinset]
  rw [newEvent_it it it' v l P F hP hF]
  have fP : P.foldl (fun acc x => acc ∪ h.presentOrPast x) ∅ = P'.foldl (fun acc x => acc ∪ h.presentOrPast x) ∅ := by
    ext y; simp only [foldl_union_mem, mP]
  have fF : F.foldl (fun acc x => acc ∪ h.presentOrFuture x) ∅ = F'.foldl (fun acc x => acc ∪ h.presentOrFuture x) ∅ := by
    ext y; simp only [foldl_union_mem, mF]
  have e : h.alloc l P F = h.alloc l P' F' := by unfold alloc; rw [fP, fF]
  unfold newEvent
  rw [e]

/-- **C92, `merge` of objects that can be iterated again** (sets, lists with or without repetitions, tuples, causets): the order afterwards and the returned causet are those of the
sets of their events. -/
theorem C92_merge (it : Iter) (lp lf : List EId) (d : Bool) :
    (mergeArgs it (.again lp) (.again lf) d h).2.SameOrder (merge it lp.toFinset lf.toFinset d h).2 ∧
    (mergeArgs it (.again lp) (.again lf) d h).1 = (mergeArgs it (.again lp) (.again lf) d h).2.causetInit it (lp.toFinset ∪ lf.toFinset) := by
  cases d with
  | true => exact ⟨SameOrder.refl _, rfl⟩
  | false =>
    obtain ⟨a0, a1, a2, a3, a4⟩ := mergeArgsLoop_again lf lp h
    obtain ⟨b1, b2, b3, b4⟩ := merge_fields it lp.toFinset lf.toFinset h
    refine ⟨⟨b1.trans a1.symm, b2.trans a2.symm, funext fun x => Finset.ext fun y => ?_, funext fun x => Finset.ext fun y => ?_⟩, ?_⟩
    · rw [b3]; simp only [List.mem_toFinset]; exact (a3 y x).symm
    · rw [b4]; simp only [List.mem_toFinset]; exact (a4 x y).symm
    · simp only [mergeArgs, Bool.false_eq_true, if_false, Arg.items, Arg.rest, a0]

/-- **C92, `merge` with an iterator as `futureSet`:** only the first event `p` of the past set precedes the events of the future set afterwards, and the returned causet is the closure of the past set
alone (of nothing if that is an iterator, too). -/
theorem C92_merge_once (it : Iter) (P : Arg) (p : EId) (ps lf : List EId) (hP : P.items = p :: ps) :
    (∀ a b, (mergeArgs it P (.once lf) false h).2.Lt a b ↔ h.Lt a b ∨ (a = p ∧ b ∈ lf)) ∧
    (mergeArgs it P (.once lf) false h).1 = (mergeArgs it P (.once lf) false h).2.causetInit it (P.rest.items.toFinset) := by
  have e : mergeArgsLoop (p :: ps) (.once lf) h = (.once [], mergeInner p lf h) := by
    simp only [mergeArgsLoop, Arg.rest, Arg.items, mergeArgsLoop_once_nil]
  obtain ⟨a1, a2, a3, a4⟩ := mergeInner_fields p lf h
  constructor
  · intro a b
    simp only [mergeArgs, Bool.false_eq_true, if_false, hP, e, Lt, lt, decide_eq_true_eq]
    exact a3 a b
  · simp only [mergeArgs, Bool.false_eq_true, if_false, hP, e]
    rw [show (Arg.once ([] : List EId)).items.toFinset = ∅ from rfl, Finset.union_empty]

/-- **C92, `merge` with an iterator as `pastSet` only:** the order is that of the sets, and the causet returned is the closure of the future set; if that is not empty and the two sets can be merged
(C17: the past set closed to the past, the future set to the future, disjoint) it is the causet of both. -/
theorem C92_merge_past_once (it : Iter) (v : h.Valid) (lp lf : List EId) (eP : ∀ p ∈ lp, h.Exists p) (eF : ∀ f ∈ lf, h.Exists f)
    (hP : ∀ p ∈ lp, ∀ x, h.Lt x p → x ∈ lp) (hF : ∀ f ∈ lf, ∀ x, h.Lt f x → x ∈ lf) (hd : ∀ p ∈ lp, p ∉ lf) :
    (mergeArgs it (.once lp) (.again lf) false h).2.SameOrder (merge it lp.toFinset lf.toFinset false h).2 ∧
    (lf ≠ [] → (mergeArgs it (.once lp) (.again lf) false h).1 = (merge it lp.toFinset lf.toFinset false h).1) ∧
    (lf = [] → (mergeArgs it (.once lp) (.again lf) false h).1 = .ok ∅) := by
  obtain ⟨a0, a1, a2, a3, a4⟩ := mergeArgsLoop_again lf lp h
  obtain ⟨b1, b2, b3, b4⟩ := merge_fields it lp.toFinset lf.toFinset h
  have so : (mergeArgs it (.once lp) (.again lf) false h).2.SameOrder (merge it lp.toFinset lf.toFinset false h).2 := by
    refine ⟨b1.trans a1.symm, b2.trans a2.symm, funext fun x => Finset.ext fun y => ?_, funext fun x => Finset.ext fun y => ?_⟩
    · rw [b3]; simp only [List.mem_toFinset]; exact (a3 y x).symm
    · rw [b4]; simp only [List.mem_toFinset]; exact (a4 x y).symm
  have vm : (merge it lp.toFinset lf.toFinset false h).2.Valid := merge_valid it _ _ h v (by simpa using eP) (by simpa using eF) (by simpa using hP) (by simpa using hF)
    (by rw [Finset.disjoint_left]; simpa using hd)
  have r : (mergeArgs it (.once lp) (.again lf) false h).1 = (mergeArgs it (.once lp) (.again lf) false h).2.causetInit it lf.toFinset := by
    simp only [mergeArgs, Bool.false_eq_true, if_false, Arg.items, Arg.rest, a0, List.toFinset_nil, Finset.empty_union]
  refine ⟨so, fun hne => ?_, ?_⟩
  · rw [r]
    change _ = (merge it lp.toFinset lf.toFinset false h).2.causetInit it (lp.toFinset ∪ lf.toFinset)
    have vg := so.symm.valid vm
    have en : (mergeArgs it (.once lp) (.again lf) false h).2.next = h.next := a1
    have ex : ∀ {e}, h.Exists e → (merge it lp.toFinset lf.toFinset false h).2.Exists e := fun he => by
      unfold Heap.Exists at *; rw [b1]; exact he
    have exg : ∀ {e}, h.Exists e → (mergeArgs it (.once lp) (.again lf) false h).2.Exists e := fun he => by
      unfold Heap.Exists at *; rw [en]; exact he
    obtain ⟨C, h1, h2, h3, h4⟩ := C09_causet_closure it vg lf.toFinset (fun e he => exg (eF e (List.mem_toFinset.1 he)))
    obtain ⟨C', h1', h2', h3', h4'⟩ := C09_causet_closure it vm (lp.toFinset ∪ lf.toFinset) (fun e he => by
      rcases Finset.mem_union.1 he with he | he
      · exact ex (eP e (List.mem_toFinset.1 he))
      · exact ex (eF e (List.mem_toFinset.1 he)))
    have hlt : (merge it lp.toFinset lf.toFinset false h).2.Lt = (mergeArgs it (.once lp) (.again lf) false h).2.Lt := so.Lt
    rw [hlt] at h3' h4'
    have key : C = C' := by
      apply Finset.Subset.antisymm (h4 C' (fun x hx => h2' (Finset.mem_union_right _ hx)) h3')
      refine h4' C (fun x hx => ?_) h3
      rcases Finset.mem_union.1 hx with hx | hx
      · obtain ⟨f, hf⟩ := List.exists_mem_of_ne_nil lf hne
        have hl : (mergeArgs it (.once lp) (.again lf) false h).2.Lt x f := by
          simp only [Lt, lt, decide_eq_true_eq]
          exact (a3 x f).2 (Or.inr ⟨List.mem_toFinset.1 hx, hf⟩)
        exact h3 f (h2 (List.mem_toFinset.2 hf)) x (Or.inr hl)
      · exact h2 hx
    rw [h1, h1', key]
  · intro hn
    rw [r, hn]
    exact causetInit_closed it _ _ (by simp)

/-- **C92, `add` and `discard`** with any iterable other than the causet itself add and remove its events; a causet can be added to itself (nothing happens). -/
theorem C92_add_discard (it : Iter) (C : Finset EId) (a : Arg) :
    (∀ x, x ∈ (causetAddArg it C (.arg a) false h).1 ↔ x ∈ C ∨ x ∈ a.items) ∧ (causetAddArg it C (.arg a) false h).2 = (.ok (), h) ∧
    (∀ x, x ∈ (causetDiscardArg it C (.arg a) false h).1 ↔ x ∈ C ∧ x ∉ a.items) ∧ (causetDiscardArg it C (.arg a) false h).2 = (.ok (), h) ∧
    causetAddArg it C .self false h = (C, .ok (), h) := by
  refine ⟨fun x => ?_, rfl, fun x => ?_, rfl, ?_⟩
  · simp [causetAddArg, causetAdd]
  · simp [causetDiscardArg, causetDiscard]
  · simp [causetAddArg, causetAdd]

/-- **C92 is false for `discard` of a causet from itself** (documented: "`Causet` or `Set[CausetEvent]`"): for every causet that is not empty exactly one event is removed, an unspecified one, and RuntimeError is raised. -/
theorem C92_discard_self (it : Iter) (C : Finset EId) (hC : C.Nonempty) (u : Bool) :
    ∃ x ∈ C, causetDiscardArg it C .self u h = (C.erase x, .error .runtimeError, h) := by
  obtain ⟨y, hy⟩ := hC
  unfold causetDiscardArg
  cases e : it.ord [256] C with
  | nil => exact absurd ((it.mem [256] C y).2 hy) (by rw [e]; simp)
  | cons x l => exact ⟨x, (it.mem [256] C x).1 (by rw [e]; simp), rfl⟩

/-- **C92, `Antipaths` along a list or set** is the function of C66. -/
theorem C92_antipaths (it : Iter) (C : Finset EId) (depth : ℕ) (a b : EId) (l : List EId) (D : Option DMat) :
    antipathsArg it h C depth a b (.again l) D = h.antipaths it C depth a b l D := by
  unfold antipathsArg Arg.mem Arg.items
  by_cases hab : a = b
  · subst hab
    by_cases hl : a ∈ l
    · simp [antipaths, hl]
    · simp [antipaths, hl]
  · by_cases hs : h.isSpacelikeTo a b = true
    · by_cases ha : a ∈ l
      · by_cases hb : b ∈ l
        · simp [hab, hs, ha, hb]
        · simp [antipaths, hab, hs, hb]
      · simp [antipaths, hab, hs, ha]
    · simp [antipaths, hab, hs]

/-- **C92 is false for `Antipaths` along an iterator:** for different spacelike events `a`, `b` both on the iterator (without repetitions), nothing is found if `b` comes before `a`, and ValueError is raised
otherwise, even if the antichain has a path from `a` to `b`. -/
theorem C92_antipaths_once (it : Iter) (C : Finset EId) (depth : ℕ) (a b : EId) (D : Option DMat) (hab : a ≠ b) (hs : h.isSpacelikeTo a b = true) (l m r : List EId)
    (hn : (l ++ a :: (m ++ b :: r)).Nodup) :
    antipathsArg it h C depth a b (.once (l ++ a :: (m ++ b :: r))) D = .error .valueError ∧
    antipathsArg it h C depth b a (.once (l ++ a :: (m ++ b :: r))) D = .ok [] := by
  have dw : ∀ (x : EId) (l r : List EId), x ∉ l → ((l ++ x :: r).dropWhile (fun y => decide (y ≠ x))).drop 1 = r := by
    intro x l r hx
    induction l with
    | nil => simp
    | cons y l ih =>
      rw [List.mem_cons, not_or] at hx
      rw [List.cons_append, List.dropWhile_cons_of_pos (by simpa using Ne.symm hx.1)]
      exact ih hx.2
  rw [List.nodup_append] at hn
  obtain ⟨-, n2, n3⟩ := hn
  rw [List.nodup_cons] at n2
  obtain ⟨n4, n5⟩ := n2
  rw [List.nodup_append] at n5
  obtain ⟨-, n6, n7⟩ := n5
  rw [List.nodup_cons] at n6
  have ha : a ∉ l := fun hx => n3 a hx a (by simp) rfl
  have hb : b ∉ m := fun hx => n7 b hx b (by simp) rfl
  have hbl : b ∉ l := fun hx => n3 b hx b (by simp) rfl
  have har : a ∉ r := fun hx => n4 (by simp [hx])
  have ham : a ∉ m := fun hx => n4 (by simp [hx])
  constructor
  · unfold antipathsArg
    simp only [if_neg hab, hs, if_true, Arg.mem, List.mem_append, List.mem_cons, true_or, or_true, decide_true, dw a l _ ha, dw b m _ hb, Arg.items, har, false_and, if_false]
  · unfold antipathsArg
    have e1 : ((l ++ a :: (m ++ b :: r)).dropWhile (fun y => decide (y ≠ b))).drop 1 = r := by
      have := dw b (l ++ a :: m) r (by simp [hbl, hb, Ne.symm hab])
      simpa using this
    simp only [if_neg (Ne.symm hab), Arg.mem, List.mem_append, List.mem_cons, true_or, or_true, decide_true, if_true, e1, har, decide_false, Bool.false_eq_true, if_false, ite_self]

/-- three unrelated events 0, 1, 2 -/
def exThree : Heap := (((Heap.empty.newEvent Iter.asc none [] []).2.newEvent Iter.asc none [] []).2.newEvent Iter.asc none [] []).2

theorem exThree_reach : Reachable exThree := by
  refine .new _ _ _ _ _ (.new _ _ _ _ _ (.new _ _ _ _ _ .start ?_ ?_ ?_) ?_ ?_ ?_) ?_ ?_ ?_ <;> simp [Heap.Exists]

/-- **C92 is false for `merge`:** with the events 0, 1 as past set and an iterator over the event 2 as future set, 1 is not before 2 afterwards; with iterators for both, the causet returned is empty. -/
theorem C92_merge_refuted : Reachable exThree ∧
    ¬ (mergeArgs Iter.asc (.again [0, 1]) (.once [2]) false exThree).2.Lt 1 2 ∧ (mergeArgs Iter.asc (.again [0, 1]) (.again [2]) false exThree).2.Lt 1 2 ∧
    (mergeArgs Iter.asc (.once [0]) (.once [2]) false exThree).1.toOption = some ∅ ∧ (mergeArgs Iter.asc (.again [0]) (.again [2]) false exThree).1.toOption = some {0, 2} :=
  ⟨exThree_reach, by decide, by decide, by decide, by decide⟩

/-- C92_merge_past_once, C92_antipaths_once: cases that meet the hypotheses -/
example : exThree.Valid ∧ (mergeArgs Iter.asc (.once [0, 1]) (.again [2]) false exThree).1.toOption = some {0, 1, 2} ∧
    antipathsArg Iter.asc exThree {0, 1, 2} 9 0 1 (.once [0, 2, 1]) none = .error .valueError ∧ exThree.isSpacelikeTo 0 1 = true ∧ [0, 2, 1].Nodup :=
  ⟨exThree_reach.valid, by decide, (C92_antipaths_once Iter.asc {0, 1, 2} 9 0 1 none (by decide) (by decide) [] [2] [] (by decide)).1, by decide, by decide⟩

end Causets
