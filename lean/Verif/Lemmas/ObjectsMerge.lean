import Verif.Lemmas.ObjectsCausets

/-! # Set objects: `merge`, also for arguments that are `Past`, `Future`, ... of events that take part -/

namespace Causets

open Function (update)

namespace Objs

variable {it : Iter} {o : Objs}

theorem get_addToFuture {g : Objs} (h : g.Sep) {p : EId} (hp : (g.attr p .succ).isSome) (f e : EId) :
    g.get e .prec = (g.addToFuture p f).get e .prec ∧ g.get e .succ ⊆ (g.addToFuture p f).get e .succ := by
  rw [← abs_prec, ← abs_prec, ← abs_succ, ← abs_succ, abs_addToFuture h hp]
  unfold Heap.addToFuture
  split
  · exact ⟨rfl, Finset.Subset.refl _⟩
  · dsimp only
    have hin : ∀ s : EId → Finset EId, s e ⊆ update s p (insert f (s p)) e := fun s => by
      by_cases he : e = p
      · subst he; rw [Function.update_self]; exact Finset.subset_insert _ _
      · rw [Function.update_of_ne he]
    split
    · exact ⟨rfl, hin g.abs.succ⟩
    · exact ⟨rfl, hin g.abs.succ⟩

theorem get_addToPast {g : Objs} (h : g.Sep) {f : EId} (hf : (g.attr f .prec).isSome) (p e : EId) :
    g.get e .succ = (g.addToPast f p).get e .succ ∧ g.get e .prec ⊆ (g.addToPast f p).get e .prec := by
  rw [← abs_prec, ← abs_prec, ← abs_succ, ← abs_succ, abs_addToPast h hf]
  unfold Heap.addToPast
  split
  · exact ⟨rfl, Finset.Subset.refl _⟩
  · dsimp only
    have hin : ∀ s : EId → Finset EId, s e ⊆ update s f (insert p (s f)) e := fun s => by
      by_cases he : e = f
      · subst he; rw [Function.update_self]; exact Finset.subset_insert _ _
      · rw [Function.update_of_ne he]
    split
    · exact ⟨rfl, hin g.abs.prec⟩
    · exact ⟨rfl, hin g.abs.prec⟩

/-- what the loops of `merge` keep: the two sets they run over -/
structure Merging (o g : Objs) (i j : ℕ) : Prop where
  sep : g.Sep
  next : g.next = o.next
  nextSet : g.nextSet = o.nextSet
  attr : g.attr = o.attr
  vi : g.val i = o.val i
  vj : g.val j = o.val j
  prec : ∀ e, o.get e .prec ⊆ g.get e .prec
  succ : ∀ e, o.get e .succ ⊆ g.get e .succ

theorem get_of_attr {e : EId} {f : Field} {i : ℕ} (h : o.attr e f = some i) : o.get e f = o.val i := by unfold get; rw [h]
theorem opt_of_attr {e : EId} {f : Field} {i : ℕ} (h : o.attr e f = some i) : o.opt e f = some (o.val i) := by unfold opt; rw [h]; rfl

theorem merging_body (h : o.Good) (hv : o.abs.Valid) (hl : o.abs.LinksExact) {i j : ℕ} {p f : EId} (hp : p ∈ o.val i) (hf : f ∈ o.val j)
    (hpe : p < o.next) (hfe : f < o.next) {g : Objs} (hg : Merging o g i j) :
    Merging o ((g.addToFuture p f).addToPast f p) i j ∧ ((g.addToFuture p f).addToPast f p).abs = ((g.abs.addToFuture p f).2.addToPast f p).2 := by
  have irr : ∀ a, ¬ o.abs.Lt a a := hv.order.irrefl
  have hp2 : (g.attr p .succ).isSome := by rw [hg.attr]; exact (h.ex p hpe).2
  have s1 := (step_addToFuture hg.sep p f).sep
  have at1 : (g.addToFuture p f).attr = o.attr := (attr_addToFuture p f).trans hg.attr
  have hf2 : ((g.addToFuture p f).attr f .prec).isSome := by rw [at1]; exact (h.ex f hfe).1
  -- an event is in none of its own sets
  have nps : o.attr p .succ ≠ some i := fun hh => irr p ((hv.future_eq p p).1 (by show p ∈ o.get p .succ; rw [get_of_attr hh]; exact hp))
  have npl : o.attr p .lsucc ≠ some i := fun hh => irr p ((hl.future p _ (opt_of_attr hh) p).1 hp).1
  have nfs : o.attr f .prec ≠ some j := fun hh => irr f ((hv.past_eq f f).1 (by show f ∈ o.get f .prec; rw [get_of_attr hh]; exact hf))
  have nfl : o.attr f .lprec ≠ some j := fun hh => irr f ((hl.past f _ (opt_of_attr hh) f).1 hf).1
  have g1 : Merging o (g.addToFuture p f) i j := by
    refine ⟨s1, (next_addToFuture p f).trans hg.next, (nextSet_addToFuture p f).trans hg.nextSet, at1, ?_, ?_, fun e => ?_, fun e => ?_⟩
    · rw [val_addToFuture_ne f (by rw [hg.attr]; exact nps) (by rw [hg.attr]; exact npl)]; exact hg.vi
    · by_cases hmem : f ∈ g.get p .succ
      · unfold addToFuture; rw [if_pos hmem]; exact hg.vj
      · have n1 : o.attr p .succ ≠ some j := fun hh => hmem (hg.succ p (by rw [get_of_attr hh]; exact hf))
        have n2 : o.attr p .lsucc ≠ some j := fun hh => hmem (hg.succ p ((hv.future_eq p f).2 ((hl.future p _ (opt_of_attr hh) f).1 hf).1))
        rw [val_addToFuture_ne f (by rw [hg.attr]; exact n1) (by rw [hg.attr]; exact n2)]; exact hg.vj
    · rw [← (get_addToFuture hg.sep hp2 f e).1]; exact hg.prec e
    · exact (hg.succ e).trans (get_addToFuture hg.sep hp2 f e).2
  refine ⟨⟨(step_addToPast s1 f p).sep, (next_addToPast f p).trans g1.next, (nextSet_addToPast f p).trans g1.nextSet, (attr_addToPast f p).trans at1, ?_, ?_, fun e => ?_, fun e => ?_⟩, ?_⟩
  · by_cases hmem : p ∈ (g.addToFuture p f).get f .prec
    · unfold addToPast; rw [if_pos hmem]; exact g1.vi
    · have n1 : o.attr f .prec ≠ some i := fun hh => hmem (g1.prec f (by rw [get_of_attr hh]; exact hp))
      have n2 : o.attr f .lprec ≠ some i := fun hh => hmem (g1.prec f ((hv.past_eq p f).2 ((hl.past f _ (opt_of_attr hh) p).1 hp).1))
      rw [val_addToPast_ne p (by rw [at1]; exact n1) (by rw [at1]; exact n2)]; exact g1.vi
  · rw [val_addToPast_ne p (by rw [at1]; exact nfs) (by rw [at1]; exact nfl)]; exact g1.vj
  · exact (g1.prec e).trans (get_addToPast s1 hf2 p e).2
  · rw [← (get_addToPast s1 hf2 p e).1]; exact g1.succ e
  · rw [abs_addToPast s1 hf2, abs_addToFuture hg.sep hp2]

theorem merging_inner (h : o.Good) (hv : o.abs.Valid) (hl : o.abs.LinksExact) {i j : ℕ} {p : EId} (hp : p ∈ o.val i)
    (hpe : p < o.next) (hje : ∀ x ∈ o.val j, x < o.next) : ∀ (l : List EId), (∀ x ∈ l, x ∈ o.val j) → ∀ g, Merging o g i j →
    Merging o (l.foldl (fun g' f => (g'.addToFuture p f).addToPast f p) g) i j ∧
      (l.foldl (fun g' f => (g'.addToFuture p f).addToPast f p) g).abs = mergeInner p l g.abs
  | [], _, g, hg => ⟨hg, rfl⟩
  | f :: l, hm, g, hg => by
    have hf := hm f List.mem_cons_self
    have h1 := merging_body h hv hl hp hf hpe (hje f hf) hg
    have ih := merging_inner h hv hl hp hpe hje l (fun x hx => hm x (List.mem_cons_of_mem _ hx)) _ h1.1
    refine ⟨ih.1, ?_⟩
    rw [List.foldl_cons, ih.2, h1.2]
    rfl

theorem merging_outer (h : o.Good) (hv : o.abs.Valid) (hl : o.abs.LinksExact) {i j : ℕ} (hie : ∀ x ∈ o.val i, x < o.next)
    (hje : ∀ x ∈ o.val j, x < o.next) (l : List EId) : (∀ x ∈ l, x ∈ o.val i) → ∀ g, Merging o g i j →
    ∃ g', runList (fun p g => g.loop it [p, 238] (fun f g' => (.ok (), (g'.addToFuture p f).addToPast f p)) j) l g = (.ok (), g') ∧ Merging o g' i j ∧
      g'.abs = Causets.mergeLoop it (o.val j) l g.abs := by
  induction l with
  | nil => intro _ g hg; exact ⟨g, rfl, hg, rfl⟩
  | cons p l ih =>
    intro hm g hg
    have hp := hm p List.mem_cons_self
    have hmem : ∀ x ∈ it.ord [p, 238] (g.val j), x ∈ o.val j := fun x hx => by rw [← hg.vj]; exact (it.mem _ _ _).1 hx
    have h1 := merging_inner h hv hl hp (hie p hp) hje (it.ord [p, 238] (g.val j)) hmem g hg
    have hin : g.loop it [p, 238] (fun f g' => (.ok (), (g'.addToFuture p f).addToPast f p)) j =
        (.ok (), (it.ord [p, 238] (g.val j)).foldl (fun g' f => (g'.addToFuture p f).addToPast f p) g) := by
      show forSet _ _ _ _ _ = _
      rw [forSet_eq (P := fun g' => Merging o g' i j) (fun g' hg' => by rw [hg'.vj, hg.vj]) _
        (fun g' x hx hg' => (merging_body h hv hl hp (hmem x hx) (hie p hp) (hje x (hmem x hx)) hg').1) g hg, runList_ok]
    obtain ⟨g', e1, m1, a1⟩ := ih (fun x hx => hm x (List.mem_cons_of_mem _ hx)) _ h1.1
    refine ⟨g', ?_, m1, ?_⟩
    · unfold runList
      rw [hin]
      exact e1
    · rw [a1, h1.2, hg.vj]
      rfl

/-- The loops of `merge` are never disturbed, whatever the two set objects are. -/
theorem mergeLoop_spec (h : o.Good) (hv : o.abs.Valid) (hl : o.abs.LinksExact) {i j : ℕ} (hie : ∀ x ∈ o.val i, x < o.next)
    (hje : ∀ x ∈ o.val j, x < o.next) :
    ∃ g, o.mergeLoop it i j = (.ok (), g) ∧ Merging o g i j ∧ g.abs = Causets.mergeLoop it (o.val j) (it.ord [237] (o.val i)) o.abs := by
  have m0 : Merging o o i j := ⟨h.sep, rfl, rfl, rfl, rfl, rfl, fun _ => Finset.Subset.refl _, fun _ => Finset.Subset.refl _⟩
  have hmem : ∀ x ∈ it.ord [237] (o.val i), x ∈ o.val i := fun x hx => (it.mem _ _ _).1 hx
  obtain ⟨g, e1, m1, a1⟩ := merging_outer (it := it) h hv hl hie hje (it.ord [237] (o.val i)) hmem o m0
  refine ⟨g, ?_, m1, a1⟩
  rw [← e1]
  show forSet _ _ _ _ _ = _
  refine forSet_eq (P := fun g' => Merging o g' i j) (fun g' hg' => by rw [hg'.vi]) _ (fun g' x hx hg' => ?_) o m0
  obtain ⟨g2, e2, m2, _⟩ := merging_outer (it := it) h hv hl hie hje [x] (fun y hy => by rw [List.mem_singleton.1 hy]; exact hmem x hx) g' hg'
  unfold runList at e2
  rcases hx' : g'.loop it [x, 238] (fun f g' => (.ok (), (g'.addToFuture x f).addToPast f x)) j with ⟨r, o1⟩
  rw [hx'] at e2
  cases r with
  | error y => cases e2
  | ok y => cases e2; exact m2

/-- the outcome of a function that returns a set object, against a function on values -/
def Agrees (r : Except Err ℕ × Objs) (v : Except Err (Finset EId) × Heap) : Prop :=
  r.2.abs = v.2 ∧ match v.1 with
    | .error x => r.1 = .error x
    | .ok s => ∃ k, r.1 = .ok k ∧ r.2.val k = s ∧ k < r.2.nextSet ∧ ¬ r.2.IsAttr k

theorem Returns.agrees {o : Objs} {r : Except Err ℕ × Objs} {v : Except Err (Finset EId)} (h : Returns o r v) : Agrees r (v, o.abs) := by
  unfold Returns at h
  unfold Agrees
  cases v with
  | error x => exact ⟨h.2.1, h.1⟩
  | ok s =>
    obtain ⟨k, h1, h2⟩ := h
    exact ⟨h2.abs, k, h1, h2.val, h2.new.2, h2.notAttr⟩

theorem merge_spec (h : o.Good) (hv : o.abs.Valid) (hl : o.abs.LinksExact) {i j : ℕ} (hie : ∀ x ∈ o.val i, x < o.next)
    (hje : ∀ x ∈ o.val j, x < o.next) (d : Bool) :
    Agrees (o.merge it i j d) (Causets.merge it (o.val i) (o.val j) d o.abs) ∧ (o.merge it i j d).2.attr = o.attr ∧ (o.merge it i j d).2.next = o.next := by
  have key : ∀ g : Objs, Merging o g i j → Agrees ((g.newSet (g.val i ∪ g.val j)).2.causetInit it (g.newSet (g.val i ∪ g.val j)).1)
      (g.abs.causetInit it (o.val i ∪ o.val j), g.abs) ∧ ((g.newSet (g.val i ∪ g.val j)).2.causetInit it (g.newSet (g.val i ∪ g.val j)).1).2.attr = o.attr ∧
      ((g.newSet (g.val i ∪ g.val j)).2.causetInit it (g.newSet (g.val i ∪ g.val j)).1).2.next = o.next := by
    intro g hg
    have s1 := (step_newSet hg.sep (g.val i ∪ g.val j)).sep
    have hr := causetInit_spec (it := it) s1 (i := (g.newSet (g.val i ∪ g.val j)).1) (Nat.lt_succ_self _)
    have hval : (g.newSet (g.val i ∪ g.val j)).2.val (g.newSet (g.val i ∪ g.val j)).1 = o.val i ∪ o.val j := by
      show update g.val g.nextSet (g.val i ∪ g.val j) g.nextSet = _
      rw [Function.update_self, hg.vi, hg.vj]
    rw [hval, abs_newSet hg.sep] at hr
    have ha := hr.agrees
    rw [abs_newSet hg.sep] at ha
    refine ⟨ha, ?_, ?_⟩
    · unfold Returns at hr
      split at hr
      · rw [hr.2.2.2.2]; exact hg.attr
      · obtain ⟨k, _, hk⟩ := hr; rw [hk.attr]; exact hg.attr
    · unfold Returns at hr
      split at hr
      · rw [hr.2.2.2.1]; exact hg.next
      · obtain ⟨k, _, hk⟩ := hr; rw [hk.next]; exact hg.next
  have m0 : Merging o o i j := ⟨h.sep, rfl, rfl, rfl, rfl, rfl, fun _ => Finset.Subset.refl _, fun _ => Finset.Subset.refl _⟩
  unfold merge Causets.merge
  cases d with
  | true => exact key o m0
  | false =>
    obtain ⟨g, e1, m1, a1⟩ := mergeLoop_spec (it := it) h hv hl hie hje
    simp only [Bool.false_eq_true, if_false, e1]
    rw [← a1]
    exact key g m1

end Objs
end Causets
