import Verif.Lemmas.ObjectsHold
import Verif.Props.Program

/-!
# References to sets (causetevent.py, causet.py)

C95: the library neither changes nor keeps the sets that a program passes to it.
C96: passing sets by reference has the same effect as passing their values, even if the sets belong to events of the call.
C97: which of the returned sets change later.
-/

namespace Causets

open Heap

namespace Objs

variable {it : Iter} {o : Objs}

/-! ## C95 -/

theorem noSet_snd {α : Type} (r : Except Err α × Objs) : (noSet r).2 = r.2 := rfl
theorem aSet_snd (r : Except Err ℕ × Objs) : (aSet r).2 = r.2 := rfl

/-- what every call keeps, except for the set object that it is meant to change -/
structure Kept (c : Call) (o o' : Objs) : Prop where
  sep : o'.Sep
  mono : o.nextSet ≤ o'.nextSet
  keep : ∀ i, i < o.nextSet → ¬ o.IsAttr i → ¬ c.Changes i → o'.val i = o.val i
  notAttr : ∀ i, i < o.nextSet → ¬ o.IsAttr i → ¬ o'.IsAttr i

theorem Step.kept {o' : Objs} (h : Step o o') (c : Call) : Kept c o o' :=
  ⟨h.sep, h.mono, fun i hi hn _ => (h.keep i hi hn).1, fun i hi hn => (h.keep i hi hn).2⟩

/-- a change of the object `c`, and then a step -/
theorem kept_change {c : ℕ} {call : Call} (hcall : ∀ i, ¬ call.Changes i → i ≠ c) (h : o.Sep) {o1 o' : Objs} (hb : Build c o o1) (hs : o1.Sep → Step o1 o') :
    Kept call o o' := by
  have s1 : o1.Sep := ⟨fun e f i => by rw [hb.attr, hb.nextSet]; exact h.lt e f i, fun e f e' f' i => by rw [hb.attr]; exact h.inj e f e' f' i⟩
  have st := hs s1
  have hn1 : ∀ i, ¬ o.IsAttr i → ¬ o1.IsAttr i := fun i hn => by unfold IsAttr; rw [hb.attr]; exact hn
  exact ⟨st.sep, hb.nextSet ▸ st.mono, fun i hi hn hc => (st.keep i (by rw [hb.nextSet]; exact hi) (hn1 i hn)).1.trans (hb.val i (hcall i hc)),
    fun i hi hn => (st.keep i (by rw [hb.nextSet]; exact hi) (hn1 i hn)).2⟩

theorem kept_add (h : o.Sep) (c i : ℕ) (u : Bool) : Kept (.add c i u) o (o.causetAdd it c i u).2 := by
  refine kept_change (c := c) (o1 := o.change c (fun s => s ∪ o.val i)) (fun j hj hh => hj (by subst hh; rfl)) h (build_change _ _) (fun s1 => ?_)
  unfold causetAdd
  dsimp only
  split
  · exact step_loop (fun g e hg => step_unlink hg e) _ _ s1
  · exact Step.refl s1

theorem build_differenceUpdate (c i : ℕ) (k : Bool) : Build c o (o.differenceUpdate it c i k).2 := by
  unfold differenceUpdate
  split
  · exact build_forSet (G := fun _ e s => s.erase e) _ _ _ _
  · exact build_change c (fun s => s \ o.val i)

theorem kept_discard (h : o.Sep) (c i : ℕ) (k u : Bool) : Kept (.discard c i k u) o (o.causetDiscard it c i k u).2 := by
  have hb := build_differenceUpdate (it := it) (o := o) c i k
  refine kept_change (c := c) (o1 := (o.differenceUpdate it c i k).2) (fun j hj hh => hj (by subst hh; rfl)) h hb (fun s1 => ?_)
  unfold causetDiscard
  split
  · rename_i hx; rw [hx] at s1 ⊢; exact Step.refl s1
  · rename_i hx
    rw [hx] at s1 ⊢
    split
    · exact step_loop (fun g e hg => step_unlink hg e) _ _ s1
    · exact Step.refl s1

theorem run_kept (h : o.Sep) (call : Call) : Kept call o (o.run it call).2 := by
  cases call with
  | newEvent l p f => exact (step_newEvent h l p f).kept _
  | copy e => exact (step_copy h e).kept _
  | disjoin e => exact (step_disjoin h e).kept _
  | link e => exact (step_link h e).kept _
  | unlink e => exact (step_unlink h e).kept _
  | past e => exact (Step.refl h).kept _
  | future e => exact (Step.refl h).kept _
  | cone e => exact (step_newSet h _).kept _
  | presentOrPast e => exact (step_newSet h _).kept _
  | presentOrFuture e => exact (step_newSet h _).kept _
  | linkPast e => exact (step_linkPast h e).kept _
  | linkFuture e => exact (step_linkFuture h e).kept _
  | pastOf i p q => exact (step_gatherOf h _ _ _ _ _ _).kept _
  | futureOf i p q => exact (step_gatherOf h _ _ _ _ _ _).kept _
  | coneOf i p q => exact (step_gatherOf h _ _ _ _ _ _).kept _
  | newCauset i => exact (step_initLoop _ _ h).kept _
  | merge i j d => exact (step_merge h i j d).kept _
  | add c i u => exact kept_add h c i u
  | discard c i k u => exact kept_discard h c i k u
  | causetLink c => exact (step_causetLink h c).kept _
  | causetUnlink c => exact (step_causetUnlink h c).kept _
  | newSet s => exact (step_newSet h s).kept _
  | change i s => exact kept_change (c := i) (fun j hj hh => hj (by subst hh; rfl)) h (build_change i (fun _ => s)) Step.refl

theorem empty_sep : empty.Sep := ⟨fun _ _ _ h => (nomatch h), fun _ _ _ _ _ h => (nomatch h)⟩

theorem runs_sep (it : Iter) : ∀ (calls : List Call) {o : Objs}, o.Sep → (runs it calls o).Sep
  | [], _, h => h
  | c :: cs, _, h => runs_sep it cs (run_kept h c).sep

theorem runs_append (it : Iter) : ∀ (a b : List Call) (o : Objs), runs it (a ++ b) o = runs it b (runs it a o)
  | [], _, _ => rfl
  | c :: a, b, o => runs_append it a b (o.run it c).2

/-- **C95.** Whatever the program has done before (even if it has changed sets that belong to events), a call neither changes a set of the program (a set object that is no
attribute of an event), except for the causet of `add` and `discard`, nor makes an event keep it. -/
theorem C95_arguments_kept (it : Iter) (before : List Call) (call : Call) (i : ℕ)
    (hi : i < (runs it before empty).nextSet) (hn : ¬ (runs it before empty).IsAttr i) (hc : ¬ call.Changes i) :
    (runs it (before ++ [call]) empty).val i = (runs it before empty).val i ∧ ¬ (runs it (before ++ [call]) empty).IsAttr i := by
  rw [runs_append]
  have k := run_kept (it := it) (runs_sep it before empty_sep) call
  exact ⟨k.keep i hi hn hc, k.notAttr i hi hn⟩

/-- **C95.** `add` and `discard` change the set of the causet to the union and the difference (also if they end in an exception of `unlink`), for every argument. -/
theorem C95_add_discard (it : Iter) (before : List Call) (c i : ℕ) (u : Bool) :
    (runs it (before ++ [.add c i u]) empty).val c = (runs it before empty).val c ∪ (runs it before empty).val i ∧
    (runs it (before ++ [.discard c i false u]) empty).val c = (runs it before empty).val c \ (runs it before empty).val i ∧
    (i ≠ c → (runs it (before ++ [.discard c i true u]) empty).val c = (runs it before empty).val c \ (runs it before empty).val i) := by
  rw [runs_append, runs_append, runs_append]
  generalize runs it before empty = o
  have hu : ∀ (g : Objs) (ctx : List ℕ), (if u then g.loop it ctx (fun e g => g.unlink e) c else ((.ok (), g) : Except Err Unit × Objs)).2.val = g.val := fun g ctx => by
    split
    · rw [loop_unlink]; exact val_runList_unlink _ _
    · rfl
  refine ⟨?_, ?_, fun hne => ?_⟩
  · show (o.causetAdd it c i u).2.val c = _
    unfold causetAdd
    dsimp only
    rw [hu]
    exact Function.update_self ..
  · show (o.causetDiscard it c i false u).2.val c = _
    unfold causetDiscard differenceUpdate
    simp only [Bool.false_eq_true, if_false]
    rw [hu]
    exact Function.update_self ..
  · show (o.causetDiscard it c i true u).2.val c = _
    obtain ⟨o', e1, b1, v1⟩ := build_loop (it := it) (o := o) (k := c) (G := fun _ e s => s.erase e) (G0 := fun e s => s.erase e) [256] hne (fun _ _ _ _ => rfl)
    unfold causetDiscard differenceUpdate
    simp only [if_true]
    rw [e1]
    dsimp only
    rw [hu, v1]
    ext x
    rw [foldl_erase, it.mem, Finset.mem_sdiff]

/-- **C95.** A causet has a set of its own: the set object of a new causet is none of the sets that existed before, and no attribute of an event. -/
theorem C95_causet_own_set (it : Iter) (before : List Call) (call : Call) (k : ℕ)
    (hcall : (∃ i, call = .newCauset i ∧ i < (runs it before empty).nextSet) ∨ (∃ i j d, call = .merge i j d))
    (hk : ((runs it before empty).run it call).1 = .ok (some k)) :
    (runs it before empty).nextSet ≤ k ∧ ¬ (runs it (before ++ [call]) empty).IsAttr k := by
  rw [runs_append]
  have hs := runs_sep it before empty_sep
  generalize runs it before empty = o at *
  have key : ∀ (g : Objs) i, g.Sep → i < g.nextSet → aSet (g.causetInit it i) = (.ok (some k), (g.causetInit it i).2) → g.nextSet ≤ k ∧ ¬ (g.causetInit it i).2.IsAttr k := by
    intro g i hg hi hh
    have hr := causetInit_spec (it := it) hg hi
    have h1 : (aSet (g.causetInit it i)).1 = .ok (some k) := by rw [hh]
    unfold Returns at hr
    unfold aSet at h1
    split at hr
    · rw [hr.1] at h1; cases h1
    · obtain ⟨k', a1, a2⟩ := hr
      rw [a1] at h1
      dsimp only at h1
      cases h1
      exact ⟨a2.new.1, a2.notAttr⟩
  rcases hcall with ⟨i, rfl, hi⟩ | ⟨i, j, d, rfl⟩
  · refine key o i hs hi (Prod.ext hk rfl)
  · change (aSet (o.merge it i j d)).1 = .ok (some k) at hk
    show o.nextSet ≤ k ∧ ¬ (o.merge it i j d).2.IsAttr k
    have h1 : Step o (if d then ((.ok (), o) : Except Err Unit × Objs) else o.mergeLoop it i j).2 := by
      split
      · exact Step.refl hs
      · exact step_mergeLoop hs i j
    unfold merge at hk ⊢
    split at hk
    · cases hk
    · rename_i o1 hx
      rw [hx] at h1
      have h2 := h1.trans (step_newSet h1.sep (o1.val i ∪ o1.val j))
      have := key _ (o1.newSet (o1.val i ∪ o1.val j)).1 h2.sep (Nat.lt_succ_self _) (Prod.ext hk rfl)
      exact ⟨h2.mono.trans this.1, this.2⟩

/-- **C92.** `C.discard(C)` with references: the loop of `difference_update` runs over the set that it changes, so after one event (the first in the iteration order) has been removed from `C`
it raises RuntimeError; nothing else changes. -/
theorem C92_discard_self_objects (it : Iter) (before : List Call) (c : ℕ) (u : Bool) (hne : ((runs it before empty).val c).Nonempty) :
    ∃ x ∈ (runs it before empty).val c, ((runs it before empty).run it (.discard c c true u)).1 = .error .runtimeError ∧
      (runs it (before ++ [.discard c c true u]) empty).val c = ((runs it before empty).val c).erase x := by
  rw [runs_append]
  obtain ⟨x, hx, e⟩ := causetDiscard_self (it := it) (o := runs it before empty) u hne
  refine ⟨x, hx, ?_, ?_⟩
  · show (noSet ((runs it before empty).causetDiscard it c c true u)).1 = _
    rw [e]; rfl
  · show ((runs it before empty).causetDiscard it c c true u).2.val c = _
    rw [e]; exact Function.update_self ..

/-! ## C96 -/

theorem aSet_of_agrees {r : Except Err ℕ × Objs} {v : Except Err (Finset EId) × Heap} (h : Agrees r v) : ReturnsAs (aSet r) v.1 v.2 := by
  obtain ⟨h1, h2⟩ := h
  unfold ReturnsAs aSet
  cases hv : v.1 with
  | error x => rw [hv] at h2; dsimp only at h2 ⊢; rw [h2]; exact ⟨rfl, h1⟩
  | ok s =>
    rw [hv] at h2
    obtain ⟨k, a1, a2, -⟩ := h2
    dsimp only
    rw [a1]
    exact ⟨h1, k, rfl, a2⟩

theorem endsAs_of {r : Except Err Unit × Objs} {v : Except Err Unit × Heap} (h : (r.1, r.2.abs) = v) : EndsAs (noSet r) v.1 v.2 := by
  subst h
  refine ⟨rfl, ?_⟩
  unfold noSet
  dsimp only
  cases r.1 <;> rfl

theorem endsAs_of' {c : ℕ} {r : Except Err Unit × Objs} {v : Finset EId × Except Err Unit × Heap} (h : AgreesOn c r v) : EndsAs (noSet r) v.2.1 v.2.2 ∧ (noSet r).2.val c = v.1 := by
  obtain ⟨h1, h2, h3⟩ := h
  exact ⟨endsAs_of (v := v.2) (Prod.ext h2 h3), h1⟩

theorem fresh_spec (h : o.Sep) (s : Finset EId) : ReturnsSet (o.fresh s) s o.abs := ⟨abs_newSet h s, o.nextSet, rfl, Function.update_self ..⟩

theorem attr_spec (h : o.Good) {e : EId} (he : e < o.next) (f : Field) (hf : f = .prec ∨ f = .succ) : ReturnsSet (.ok (o.attr e f), o) (o.get e f) o.abs := by
  have hx : (o.attr e f).isSome := by rcases hf with rfl | rfl; exacts [(h.ex e he).1, (h.ex e he).2]
  obtain ⟨k, hk⟩ := Option.isSome_iff_exists.1 hx
  exact ⟨rfl, k, by rw [hk], (get_of_attr hk).symm⟩

theorem returnsSet_of_opt {r : Option ℕ × Objs} {s : Finset EId} {h : Heap} (h1 : r.1.map r.2.val = some s) (h2 : r.2.abs = h) : ReturnsSet (.ok r.1, r.2) s h := by
  cases hk : r.1 with
  | none => rw [hk] at h1; cases h1
  | some k => rw [hk] at h1; exact ⟨h2, k, rfl, Option.some.inj h1⟩

theorem mem_get_lt (hv : o.abs.Valid) (hl : o.abs.LinksExact) (e : EId) (f : Field) (x : EId) (hx : x ∈ o.get e f) : x < o.next := by
  have hx' : x ∈ (o.opt e f).getD ∅ := by rw [← get_eq]; exact hx
  cases f with
  | prec => exact (hv.exists_of_lt x e ((hv.past_eq x e).1 hx)).1
  | succ => exact (hv.exists_of_lt e x ((hv.future_eq e x).1 hx)).2
  | lprec =>
    cases ho : o.opt e .lprec with
    | none => rw [ho] at hx'; exact absurd hx' (Finset.notMem_empty x)
    | some s => rw [ho] at hx'; exact (hv.exists_of_lt x e ((hl.past e s ho x).1 hx').1).1
  | lsucc =>
    cases ho : o.opt e .lsucc with
    | none => rw [ho] at hx'; exact absurd hx' (Finset.notMem_empty x)
    | some s => rw [ho] at hx'; exact (hv.exists_of_lt e x ((hl.future e s ho x).1 hx').1).2

/-- **C96.** In every consistent state, every call whose arguments exist does the same as the function on values, with the same exceptions: it does not matter whether the
sets that are passed are also the `Past`, the `Future` or the links of events that the call changes, and no loop is ever disturbed (RuntimeError) by such a change. -/
theorem by_value (h : o.Good) (hv : o.abs.Valid) (hl : o.abs.LinksExact) (call : Call) (hf : o.Fits call) : ByValue it o (o.run it call) call := by
  cases call with
  | newEvent l p f =>
    obtain ⟨a1, -, a3⟩ := newEvent_spec (it := it) h (mem_get_lt hv hl) l p f (fun i hi => hf.1 i hi) (fun i hi => hf.2 i hi)
    refine ⟨a3, ?_⟩
    show (noSet (o.newEvent it l p f)).1 = _
    unfold noSet
    rw [a1]; rfl
  | copy e => exact ⟨(copy_spec h hf).2.2, rfl⟩
  | disjoin e => exact endsAs_of (abs_disjoin h.sep e)
  | link e => exact ⟨abs_link h.sep e, rfl⟩
  | unlink e => exact endsAs_of (abs_unlink e)
  | past e => exact fun he => attr_spec h he .prec (Or.inl rfl)
  | future e => exact fun he => attr_spec h he .succ (Or.inr rfl)
  | cone e => exact fresh_spec h.sep _
  | presentOrPast e => exact fresh_spec h.sep _
  | presentOrFuture e => exact fresh_spec h.sep _
  | linkPast e => exact returnsSet_of_opt (linkPast_spec h.sep e).1 (linkPast_spec h.sep e).2
  | linkFuture e => exact returnsSet_of_opt (linkFuture_spec h.sep e).1 (linkFuture_spec h.sep e).2
  | pastOf i p q =>
    obtain ⟨o', k, e1, n1⟩ := pastOf_spec (it := it) h.sep hf.1 p q
    refine ⟨?_, k, ?_, ?_⟩ <;> show _ = _
    · show (o.pastOf it i p q).2.abs = _; rw [e1]; exact n1.abs
    · show (aSet (o.pastOf it i p q)).1 = _; rw [e1]; rfl
    · show (o.pastOf it i p q).2.val k = _; rw [e1]; exact n1.val
  | futureOf i p q =>
    obtain ⟨o', k, e1, n1⟩ := futureOf_spec (it := it) h.sep hf.1 p q
    refine ⟨?_, k, ?_, ?_⟩ <;> show _ = _
    · show (o.futureOf it i p q).2.abs = _; rw [e1]; exact n1.abs
    · show (aSet (o.futureOf it i p q)).1 = _; rw [e1]; rfl
    · show (o.futureOf it i p q).2.val k = _; rw [e1]; exact n1.val
  | coneOf i p q =>
    obtain ⟨o', k, e1, n1⟩ := coneOf_spec (it := it) h.sep hf.1 p q
    refine ⟨?_, k, ?_, ?_⟩ <;> show _ = _
    · show (o.coneOf it i p q).2.abs = _; rw [e1]; exact n1.abs
    · show (aSet (o.coneOf it i p q)).1 = _; rw [e1]; rfl
    · show (o.coneOf it i p q).2.val k = _; rw [e1]; exact n1.val
  | newCauset i => exact aSet_of_agrees (causetInit_spec h.sep hf.1).agrees
  | merge i j d => exact aSet_of_agrees (merge_spec h hv hl hf.1.2 hf.2.2 d).1
  | add c i u => exact endsAs_of' (causetAdd_spec hf.2 i u)
  | discard c i k u => exact endsAs_of' (causetDiscard_spec hf.1.2 i k u hf.2)
  | causetLink c => exact (endsAs_of' (causetLink_spec h.sep hf.1 hf.2)).1
  | causetUnlink c => exact (endsAs_of' (causetUnlink_spec c)).1
  | newSet s => exact fresh_spec h.sep s
  | change i s => exact ⟨⟨abs_change hf.2 _, rfl⟩, Function.update_self ..⟩


/-- the elements of an optional argument -/
def argSet (o : Objs) : Option ℕ → Finset EId
  | none => ∅
  | some i => o.val i

/-- **Specification.** The rules of C89 for programs: documented hypotheses of `CausetEvent(past, future)` and `merge`, the conditions that keep the link memory right, no `copy`. -/
def Rules (o : Objs) : Call → Prop
  | .newEvent _ p f => ∀ x ∈ o.argSet p, ∀ y ∈ o.argSet f, o.abs.Lt x y
  | .copy _ => False
  | .disjoin e => o.abs.hasBeenLinked e = true → ∀ a b, OnlyBetween o.abs.Lt a e b → o.abs.hasBeenLinked a = false ∧ o.abs.hasBeenLinked b = false
  | .merge i j false => Closed o.abs.Lt (o.val i) ∧ Closed o.abs.Lt (o.val j) ∧ Disjoint (o.val i) (o.val j) ∧
      (∀ p ∈ o.val i, o.abs.hasBeenLinked p = true → ∀ x, ¬ o.abs.Lt p x) ∧ (∀ f ∈ o.val j, o.abs.hasBeenLinked f = true → ∀ x, ¬ o.abs.Lt x f)
  | .causetLink c => (∀ e ∈ o.val c, ∀ x, Covers o.abs.Lt x e → x ∈ o.val c ∨ o.abs.hasBeenLinked x = true) ∧ (∀ e ∈ o.val c, ∀ x, Covers o.abs.Lt e x → x ∈ o.val c)
  | _ => True

/-- **Specification.** The states reached by programs with references: any calls in any order, for any iteration orders of sets, whose arguments exist and that obey the rules. -/
inductive Prog : Objs → Prop
  | start : Prog empty
  | step (o : Objs) (it : Iter) (call : Call) : Prog o → o.Fits call → o.Rules call → Prog (o.run it call).2

/-- only `disjoin` of the event itself makes `_prec` and `_succ` of an existing event refer to other objects -/
theorem run_hold (call : Call) (P : EId → Prop) (hP : ∀ e, P e → e < o.next ∧ call ≠ .disjoin e) : Hold P o (o.run it call).2 := by
  have hn : ¬ P o.next := fun h => lt_irrefl _ (hP _ h).1
  cases call with
  | newEvent l p f => exact hold_newEvent l p f hn
  | copy e => exact hold_copy e hn
  | disjoin e => exact hold_disjoin e (fun h => (hP e h).2 rfl)
  | link e => exact hold_link e
  | unlink e => exact hold_unlink e
  | past e => exact Hold.refl o
  | future e => exact Hold.refl o
  | cone e => exact Hold.of_attr rfl
  | presentOrPast e => exact Hold.of_attr rfl
  | presentOrFuture e => exact Hold.of_attr rfl
  | linkPast e => exact hold_linkPast e
  | linkFuture e => exact hold_linkFuture e
  | pastOf i p q => exact Hold.of_attr (attr_gatherOf _ _ _ _ _ _)
  | futureOf i p q => exact Hold.of_attr (attr_gatherOf _ _ _ _ _ _)
  | coneOf i p q => exact Hold.of_attr (attr_gatherOf _ _ _ _ _ _)
  | newCauset i => exact Hold.of_attr (attr_initLoop _ _ _)
  | merge i j d => exact hold_merge i j d
  | add c i u => exact hold_causetAdd c i u
  | discard c i k u => exact hold_causetDiscard c i k u
  | causetLink c => exact hold_causetLink c
  | causetUnlink c => exact hold_causetUnlink c
  | newSet s => exact Hold.of_attr rfl
  | change i s => exact Hold.of_attr rfl

theorem good_of_next (h : o.Good) {call : Call} (hne : ∀ e, call ≠ .disjoin e) (hnx : (o.run it call).2.next = o.next) : (o.run it call).2.Good := by
  refine ⟨(run_kept h.sep call).sep, fun e he => ?_⟩
  rw [hnx] at he
  have := run_hold (it := it) (o := o) call (fun e => e < o.next) (fun e he => ⟨he, hne e⟩) e he
  have hx := h.ex e he
  unfold Ex at hx ⊢
  rw [this.1, this.2]; exact hx

theorem next_discard (h : Heap) (a b : EId) : (h.discard a b).2.next = h.next := by
  unfold Heap.discard
  split
  · dsimp only; split <;> rfl
  · split
    · dsimp only; split <;> rfl
    · rfl

theorem next_unlinkHeap (h : Heap) (e : EId) : (h.unlink e).2.next = h.next := (unlink_sameOrder h e).next

theorem next_disjoin (h : Heap) (it : Iter) (e : EId) : (h.disjoin it e).2.next = h.next := by
  have hu := next_unlinkHeap h e
  have key : ∀ (l : List EId) (g : Heap), (l.foldl (fun g x => (g.discard x e).2) g).next = g.next := by
    intro l
    induction l with
    | nil => intro g; rfl
    | cons x l ih => intro g; rw [List.foldl_cons, ih, next_discard]
  unfold Heap.disjoin
  rcases hx : h.unlink e with ⟨r, h1⟩
  rw [hx] at hu
  cases r with
  | error y => exact hu
  | ok y =>
    dsimp only at hu ⊢
    rw [key]
    dsimp only
    rw [key]
    exact hu

theorem next_of_abs {r : Objs} {h : Heap} (ha : r.abs = h) (hn : h.next = o.abs.next) : r.next = o.next := by
  have : r.abs.next = o.abs.next := by rw [ha, hn]
  exact this

theorem returnsAs_abs {r : Except Err (Option ℕ) × Objs} {v : Except Err (Finset EId)} {h : Heap} (hr : ReturnsAs r v h) : r.2.abs = h := by
  unfold ReturnsAs at hr
  split at hr
  · exact hr.2
  · exact hr.1

/-- one step of a program: the events are again in a state that the program on values reaches -/
theorem step_program (h : o.Good) (hp : Program true o.abs) (call : Call) (hf : o.Fits call) (hr : o.Rules call) :
    (o.run it call).2.Good ∧ Program true (o.run it call).2.abs := by
  have hv := hp.inv.1
  have hl := hp.inv.2 rfl
  have bv := by_value (it := it) h hv hl call hf
  -- calls after which the events are the same
  have same : (o.run it call).2.abs = o.abs → (∀ e, call ≠ .disjoin e) → (o.run it call).2.Good ∧ Program true (o.run it call).2.abs := fun ha hne =>
    ⟨good_of_next h hne (next_of_abs ha rfl), by rw [ha]; exact hp⟩
  cases call with
  | newEvent l p f =>
    obtain ⟨-, a2, a3⟩ := newEvent_spec (it := it) h (mem_get_lt hv hl) l p f (fun i hi => hf.1 i hi) (fun i hi => hf.2 i hi)
    refine ⟨a2, ?_⟩
    show Program true (o.newEvent it l p f).2.abs
    rw [a3]
    have hm : ∀ (a : Option ℕ), (∀ i, a = some i → o.HasEvents i) → ∀ x ∈ argList it o a, x ∈ o.argSet a ∧ x < o.next := by
      intro a ha x hx
      cases a with
      | none => cases hx
      | some i => exact ⟨(it.mem _ _ _).1 hx, (ha i rfl).2 x ((it.mem _ _ _).1 hx)⟩
    exact Program.newEvent o.abs it l _ _ hp (fun x hx => (hm p hf.1 x hx).2) (fun x hx => (hm f hf.2 x hx).2)
      (fun x hx y hy => hr x (hm p hf.1 x hx).1 y (hm f hf.2 y hy).1)
  | copy e => exact hr.elim
  | disjoin e =>
    have ha : (o.disjoin it e).2.abs = (o.abs.disjoin it e).2 := bv.1
    refine ⟨⟨(step_disjoin h.sep e).sep, fun x hx => ?_⟩, ?_⟩
    · have hnx : (o.disjoin it e).2.next = o.next := next_of_abs ha (next_disjoin _ _ _)
      exact (step_disjoin h.sep e).ex x (hnx ▸ hx) (h.ex x (hnx ▸ hx))
    · show Program true (o.disjoin it e).2.abs
      rw [ha]
      exact Program.disjoin o.abs it e hp (fun _ => hr)
  | link e =>
    have ha : (o.link e).abs = o.abs.link e := bv.1
    refine ⟨good_of_next h (fun _ hh => by cases hh) rfl, ?_⟩
    show Program true (o.link e).abs
    rw [ha]; exact Program.link o.abs e hp
  | unlink e =>
    have ha : (o.unlink e).2.abs = (o.abs.unlink e).2 := bv.1
    refine ⟨good_of_next h (fun _ hh => by cases hh) (next_unlink e), ?_⟩
    show Program true (o.unlink e).2.abs
    rw [ha]; exact Program.unlink o.abs e hp
  | past e => exact ⟨h, hp⟩
  | future e => exact ⟨h, hp⟩
  | cone e => exact same bv.1 (fun _ hh => by cases hh)
  | presentOrPast e => exact same bv.1 (fun _ hh => by cases hh)
  | presentOrFuture e => exact same bv.1 (fun _ hh => by cases hh)
  | linkPast e =>
    have ha : (o.linkPast e).2.abs = ((Causets.linkPast e).run o.abs).2 := bv.1
    refine ⟨good_of_next h (fun _ hh => by cases hh) (next_of_abs ha ?_), ?_⟩
    · show (Causets.linkPast e o.abs).2.next = _
      unfold Causets.linkPast
      split <;> rfl
    · show Program true (o.linkPast e).2.abs
      rw [ha]; exact Program.query o.abs _ hp (.linkPast e)
  | linkFuture e =>
    have ha : (o.linkFuture e).2.abs = ((Causets.linkFuture e).run o.abs).2 := bv.1
    refine ⟨good_of_next h (fun _ hh => by cases hh) (next_of_abs ha ?_), ?_⟩
    · show (Causets.linkFuture e o.abs).2.next = _
      unfold Causets.linkFuture
      split <;> rfl
    · show Program true (o.linkFuture e).2.abs
      rw [ha]; exact Program.query o.abs _ hp (.linkFuture e)
  | pastOf i p q => exact same bv.1 (fun _ hh => by cases hh)
  | futureOf i p q => exact same bv.1 (fun _ hh => by cases hh)
  | coneOf i p q => exact same bv.1 (fun _ hh => by cases hh)
  | newCauset i => exact same (returnsAs_abs bv) (fun _ hh => by cases hh)
  | merge i j d =>
    have ha : (o.merge it i j d).2.abs = _ := returnsAs_abs bv
    refine ⟨good_of_next h (fun _ hh => by cases hh) (merge_spec h hv hl hf.1.2 hf.2.2 d).2.2, ?_⟩
    show Program true (o.merge it i j d).2.abs
    rw [ha]
    cases d with
    | true => exact Program.mergeDisjoint o.abs it _ _ hp
    | false => exact Program.merge o.abs it _ _ hp hf.1.2 hf.2.2 hr.1 hr.2.1 hr.2.2.1 (fun _ => hr.2.2.2)
  | add c i u =>
    have ha : (o.causetAdd it c i u).2.abs = _ := bv.1.1
    refine ⟨good_of_next h (fun _ hh => by cases hh) (next_of_abs ha (causetAdd_sameOrder it _ _ u o.abs).next), ?_⟩
    show Program true (o.causetAdd it c i u).2.abs
    rw [ha]; exact Program.add o.abs it _ _ u hp
  | discard c i k u =>
    have ha : (o.causetDiscard it c i k u).2.abs = _ := bv.1.1
    refine ⟨good_of_next h (fun _ hh => by cases hh) (next_of_abs ha (causetDiscard_sameOrder it _ _ u o.abs).next), ?_⟩
    show Program true (o.causetDiscard it c i k u).2.abs
    rw [ha]; exact Program.discard o.abs it _ _ u hp
  | causetLink c =>
    have ha : (o.causetLink it c).2.abs = _ := bv.1
    refine ⟨good_of_next h (fun _ hh => by cases hh) (next_of_abs ha (causetLink_sameOrder it _ o.abs).next), ?_⟩
    show Program true (o.causetLink it c).2.abs
    rw [ha]; exact Program.causetLink o.abs it _ hp (fun _ => hr)
  | causetUnlink c =>
    have ha : (o.causetUnlink it c).2.abs = _ := bv.1
    refine ⟨good_of_next h (fun _ hh => by cases hh) (next_of_abs ha (causetUnlink_sameOrder it _ o.abs).next), ?_⟩
    show Program true (o.causetUnlink it c).2.abs
    rw [ha]; exact Program.causetUnlink o.abs it _ hp
  | newSet s => exact same bv.1 (fun _ hh => by cases hh)
  | change i s => exact same bv.1.1 (fun _ hh => by cases hh)

theorem Prog.good (hp : Prog o) : o.Good ∧ Program true o.abs := by
  induction hp with
  | start => exact ⟨⟨empty_sep, fun e he => absurd he (Nat.not_lt_zero e)⟩, Program.start⟩
  | step o it call _ hf hr q => exact step_program q.1 q.2 call hf hr

/-- **C96.** In every state that a program with references reaches, every call whose arguments exist does the same as the function on values, with the same exceptions: it does not
matter whether the sets that are passed are also the `Past`, the `Future` or the links of events that the call changes, and no loop is ever disturbed (RuntimeError). -/
theorem C96_by_value (it : Iter) (o : Objs) (hp : Prog o) (call : Call) (hf : o.Fits call) : ByValue it o (o.run it call) call :=
  by_value hp.good.1 hp.good.2.inv.1 (hp.good.2.inv.2 rfl) call hf

/-- **C96.** Every state of the events that a program with references reaches is a state of a program on values, so that everything proved about those (`C89_order`, `C89_links`) holds. -/
theorem C96_programs (o : Objs) (hp : Prog o) : Program true o.abs := hp.good.2


/-! ## C97 -/

theorem run_next_le (h : o.Sep) (call : Call) : o.next ≤ (o.run it call).2.next := by
  cases call with
  | newEvent l p f => exact (step_newEvent h l p f).next
  | copy e => exact (step_copy h e).next
  | disjoin e => exact (step_disjoin h e).next
  | link e => exact (step_link h e).next
  | unlink e => exact (step_unlink h e).next
  | past e => exact le_refl _
  | future e => exact le_refl _
  | cone e => exact le_refl _
  | presentOrPast e => exact le_refl _
  | presentOrFuture e => exact le_refl _
  | linkPast e => exact (step_linkPast h e).next
  | linkFuture e => exact (step_linkFuture h e).next
  | pastOf i p q => exact (step_gatherOf h _ _ _ _ _ _).next
  | futureOf i p q => exact (step_gatherOf h _ _ _ _ _ _).next
  | coneOf i p q => exact (step_gatherOf h _ _ _ _ _ _).next
  | newCauset i => exact (step_initLoop _ _ h).next
  | merge i j d => exact (step_merge h i j d).next
  | add c i u =>
    show o.next ≤ (o.causetAdd it c i u).2.next
    unfold causetAdd
    dsimp only
    split
    · exact (step_loop (it := it) (fun g e hg => step_unlink hg e) [250] c (sep_change h c (fun s => s ∪ o.val i))).next
    · exact le_refl _
  | discard c i k u =>
    have hb := build_differenceUpdate (it := it) (o := o) c i k
    show o.next ≤ (o.causetDiscard it c i k u).2.next
    unfold causetDiscard
    split
    · rename_i hx; rw [hx] at hb; exact le_of_eq hb.next.symm
    · rename_i o1 hx
      rw [hx] at hb
      have s1 : o1.Sep := ⟨fun e f i => by rw [hb.attr, hb.nextSet]; exact h.lt e f i, fun e f e' f' i => by rw [hb.attr]; exact h.inj e f e' f' i⟩
      split
      · exact (le_of_eq hb.next.symm).trans (step_loop (it := it) (fun g e hg => step_unlink hg e) [262] c s1).next
      · exact le_of_eq hb.next.symm
  | causetLink c => exact (step_causetLink h c).next
  | causetUnlink c => exact (step_causetUnlink h c).next
  | newSet s => exact le_refl _
  | change i s => exact le_refl _

/-- **C97.** `Past` and `Future` are live: the set object that `e.Past` has returned is the one that `e.Past` returns after any further calls, so it always has the events that are in
the past of `e` at that time - until `e.disjoin()` is called. -/
theorem C97_live (it : Iter) (before after : List Call) (e : EId) (he : e < (runs it before empty).next) (hd : ∀ c ∈ after, c ≠ .disjoin e) :
    ((runs it (before ++ after) empty).run it (.past e)).1 = ((runs it before empty).run it (.past e)).1 ∧
    ((runs it (before ++ after) empty).run it (.future e)).1 = ((runs it before empty).run it (.future e)).1 := by
  rw [runs_append]
  have hs := runs_sep it before empty_sep
  generalize runs it before empty = o at hs he ⊢
  show Except.ok ((runs it after o).attr e .prec) = Except.ok (o.attr e .prec) ∧ Except.ok ((runs it after o).attr e .succ) = Except.ok (o.attr e .succ)
  have key : ∀ (after : List Call), (∀ c ∈ after, c ≠ .disjoin e) → ∀ o : Objs, o.Sep → e < o.next →
      (runs it after o).attr e .prec = o.attr e .prec ∧ (runs it after o).attr e .succ = o.attr e .succ := by
    intro after
    induction after with
    | nil => intro _ o _ _; exact ⟨rfl, rfl⟩
    | cons c cs ih =>
      intro hd o hs he
      have h1 := run_hold (it := it) (o := o) c (fun x => x = e) (fun x hx => hx ▸ ⟨he, hd c List.mem_cons_self⟩) e rfl
      have h2 := ih (fun c hc => hd c (List.mem_cons_of_mem _ hc)) (o.run it c).2 (run_kept hs c).sep (lt_of_lt_of_le he (run_next_le hs c))
      exact ⟨h2.1.trans h1.1, h2.2.trans h1.2⟩
  have := key after hd o hs he
  exact ⟨congrArg _ this.1, congrArg _ this.2⟩

/-- the calls that return a set of their own -/
def OwnSet (o : Objs) : Call → Prop
  | .cone _ => True
  | .presentOrPast _ => True
  | .presentOrFuture _ => True
  | .pastOf i _ _ => i < o.nextSet
  | .futureOf i _ _ => i < o.nextSet
  | .coneOf i _ _ => i < o.nextSet
  | .newCauset i => i < o.nextSet
  | .merge _ _ _ => True
  | .newSet _ => True
  | _ => False

theorem ownSet_new (h : o.Sep) {call : Call} (hc : o.OwnSet call) {k : ℕ} (hk : (o.run it call).1 = .ok (some k)) :
    k < (o.run it call).2.nextSet ∧ ¬ (o.run it call).2.IsAttr k := by
  have init : ∀ (g : Objs) i, g.Sep → i < g.nextSet → (aSet (g.causetInit it i)).1 = .ok (some k) → k < (g.causetInit it i).2.nextSet ∧ ¬ (g.causetInit it i).2.IsAttr k := by
    intro g i hg hi h1
    have hr := causetInit_spec (it := it) hg hi
    unfold Returns at hr
    unfold aSet at h1
    split at hr
    · rw [hr.1] at h1; cases h1
    · obtain ⟨k', a1, a2⟩ := hr
      rw [a1] at h1
      dsimp only at h1
      cases h1
      exact ⟨a2.new.2, a2.notAttr⟩
  have fr : ∀ s : Finset EId, (o.fresh s).1 = .ok (some k) → k < (o.fresh s).2.nextSet ∧ ¬ (o.fresh s).2.IsAttr k := fun s h1 => by
    have h1' : (Except.ok (some o.nextSet) : Except Err (Option ℕ)) = .ok (some k) := h1
    cases h1'
    exact ⟨Nat.lt_succ_self _, newSet_not_attr h s⟩
  have ga : ∀ (r : Except Err ℕ × Objs) (s : Finset EId), (∃ o' k', r = (.ok k', o') ∧ NewSet o o' k' s) → (aSet r).1 = .ok (some k) → k < r.2.nextSet ∧ ¬ r.2.IsAttr k := by
    rintro r s ⟨o', k', rfl, hn⟩ h1
    cases h1
    exact ⟨hn.new.2, hn.notAttr⟩
  cases call with
  | cone e => exact fr _ hk
  | presentOrPast e => exact fr _ hk
  | presentOrFuture e => exact fr _ hk
  | newSet s => exact fr _ hk
  | pastOf i p q => exact ga _ _ (pastOf_spec h hc p q) hk
  | futureOf i p q => exact ga _ _ (futureOf_spec h hc p q) hk
  | coneOf i p q => exact ga _ _ (coneOf_spec h hc p q) hk
  | newCauset i => exact init o i h hc hk
  | merge i j d =>
    change (aSet (o.merge it i j d)).1 = .ok (some k) at hk
    show k < (o.merge it i j d).2.nextSet ∧ ¬ (o.merge it i j d).2.IsAttr k
    have h1 : Step o (if d then ((.ok (), o) : Except Err Unit × Objs) else o.mergeLoop it i j).2 := by
      split
      · exact Step.refl h
      · exact step_mergeLoop h i j
    unfold merge at hk ⊢
    split at hk
    · cases hk
    · rename_i o1 hx
      rw [hx] at h1
      have h2 := h1.trans (step_newSet h1.sep (o1.val i ∪ o1.val j))
      exact init _ (o1.newSet (o1.val i ∪ o1.val j)).1 h2.sep (Nat.lt_succ_self _) hk
  | newEvent l p f => exact hc.elim
  | copy e => exact hc.elim
  | disjoin e => exact hc.elim
  | link e => exact hc.elim
  | unlink e => exact hc.elim
  | past e => exact hc.elim
  | future e => exact hc.elim
  | linkPast e => exact hc.elim
  | linkFuture e => exact hc.elim
  | add c i u => exact hc.elim
  | discard c i k u => exact hc.elim
  | causetLink c => exact hc.elim
  | causetUnlink c => exact hc.elim
  | change i s => exact hc.elim

theorem runs_kept (it : Iter) (k : ℕ) : ∀ (after : List Call), (∀ c ∈ after, ¬ c.Changes k) → ∀ o : Objs, o.Sep → k < o.nextSet → ¬ o.IsAttr k →
    (runs it after o).val k = o.val k ∧ k < (runs it after o).nextSet ∧ ¬ (runs it after o).IsAttr k
  | [], _, _, _, hk, hn => ⟨rfl, hk, hn⟩
  | c :: cs, hc, o, hs, hk, hn => by
    have h1 := run_kept (it := it) hs c
    have h2 := runs_kept it k cs (fun c hc' => hc c (List.mem_cons_of_mem _ hc')) (o.run it c).2 h1.sep (lt_of_lt_of_le hk h1.mono) (h1.notAttr k hk hn)
    exact ⟨h2.1.trans (h1.keep k hk hn (hc c List.mem_cons_self)), h2.2⟩

/-- **C97.** `Cone`, `PresentOrPast`, `PresentOrFuture`, `PastOf`, `FutureOf`, `ConeOf`, `Causet(...)` and `merge` return sets of their own: no later call changes them (other than
`add` and `discard` of that causet, or the program itself), and changing them does not change the events. -/
theorem C97_snapshot (it : Iter) (before : List Call) (call : Call) (after : List Call) (k : ℕ) (hown : (runs it before empty).OwnSet call)
    (hk : ((runs it before empty).run it call).1 = .ok (some k)) (hc : ∀ c ∈ after, ¬ c.Changes k) :
    (runs it (before ++ [call] ++ after) empty).val k = (runs it (before ++ [call]) empty).val k ∧
    ∀ s, ((runs it (before ++ [call] ++ after) empty).run it (.change k s)).2.abs = (runs it (before ++ [call] ++ after) empty).abs := by
  rw [runs_append, runs_append]
  have hs := runs_sep it before empty_sep
  generalize runs it before empty = o at hs hown hk ⊢
  have hnew := ownSet_new hs hown hk
  have hkept := runs_kept it k after hc (o.run it call).2 (run_kept hs call).sep hnew.1 hnew.2
  exact ⟨hkept.1, fun s => abs_change hkept.2.2 _⟩

/-! ## Witnesses -/

/-- a program: an event `0`, a set `{0}` (object 2), an event `1` with the past `{0}`, `0.Past` and `1.Past` (objects 0 and 3) -/
def demo : List Call := [.newEvent none none none, .newSet {0}, .newEvent none (some 2) none, .past 0, .past 1]

theorem demo_state : (runs Iter.asc demo empty).abs.prec 1 = {0} ∧ (runs Iter.asc demo empty).abs.succ 0 = {1} ∧ (runs Iter.asc demo empty).next = 2 ∧
    (runs Iter.asc demo empty).nextSet = 5 ∧ (runs Iter.asc demo empty).val 2 = {0} ∧
    ((runs Iter.asc demo empty).run Iter.asc (.past 1)).1 = .ok (some 3) := by
  decide

/-- the sets of `demo` are the ones of a program that obeys the rules -/
theorem demo_prog : Prog (runs Iter.asc demo empty) := by
  have h1 := Prog.step empty Iter.asc (.newEvent none none none) Prog.start ⟨fun i hi => (nomatch hi), fun i hi => (nomatch hi)⟩ (fun x hx => absurd hx (Finset.notMem_empty x))
  have h2 := Prog.step _ Iter.asc (.newSet {0}) h1 trivial trivial
  have h3 := Prog.step _ Iter.asc (.newEvent none (some 2) none) h2 ⟨fun i hi => by cases hi; exact ⟨by decide, by decide⟩, fun i hi => (nomatch hi)⟩
    (fun x _ y hy => absurd hy (Finset.notMem_empty y))
  have h4 := Prog.step _ Iter.asc (.past 0) h3 trivial trivial
  exact Prog.step _ Iter.asc (.past 1) h4 trivial trivial

/-- C95: the set object 2 of `demo` is a set of the program, which has been an argument; the set objects 0 and 3 are attributes. -/
theorem demo_sets : ¬ (runs Iter.asc demo empty).IsAttr 2 ∧ (runs Iter.asc demo empty).IsAttr 0 ∧ (runs Iter.asc demo empty).IsAttr 3 := by
  refine ⟨?_, ⟨0, .prec, by decide⟩, ⟨1, .prec, by decide⟩⟩
  have h1 : ¬ (runs Iter.asc (demo.take 2) empty).IsAttr 2 := by
    have h0 := runs_sep Iter.asc (demo.take 1) empty_sep
    exact newSet_not_attr h0 _
  exact (C95_arguments_kept Iter.asc (demo.take 2 ++ [.newEvent none (some 2) none, .past 0]) (.past 1) 2 (by decide)
    (C95_arguments_kept Iter.asc (demo.take 2 ++ [.newEvent none (some 2) none]) (.past 0) 2 (by decide)
      (C95_arguments_kept Iter.asc (demo.take 2) (.newEvent none (some 2) none) 2 (by decide) h1 (fun h => h)).2 (fun h => h)).2 (fun h => h)).2

/-- C96 for aliased arguments: `CausetEvent(past=b.Past)` (the object is the attribute of `b`) and `merge(b.Past, a.Future)`, whose loops run over sets that belong to the events which `merge`
relates. -/
theorem demo_aliased : (runs Iter.asc demo empty).Fits (.newEvent none (some 3) none) ∧ (runs Iter.asc demo empty).Rules (.newEvent none (some 3) none) ∧
    (runs Iter.asc (demo ++ [.newEvent none (some 3) none]) empty).abs.succ 0 = {1, 2} ∧
    (runs Iter.asc demo empty).Fits (.merge 3 1 false) ∧ ((runs Iter.asc demo empty).run Iter.asc (.merge 3 1 false)).1 = .ok (some 6) ∧
    ((runs Iter.asc demo empty).run Iter.asc (.merge 3 1 false)).2.val 6 = {0, 1} := by
  refine ⟨⟨fun i hi => by cases hi; exact ⟨by decide, by decide⟩, fun i hi => (nomatch hi)⟩, fun x _ y hy => absurd hy (Finset.notMem_empty y), by decide, ⟨⟨by decide, by decide⟩, by decide, by decide⟩,
    by decide, by decide⟩

/-- **Specification of C97.** The property as one expects it: a set that is returned by a call does not change by later calls of the library. -/
def ReturnedSetsKept (it : Iter) : Prop := ∀ (before : List Call) (call : Call) (after : List Call) (k : ℕ),
  Prog (runs it before empty) → ((runs it before empty).run it call).1 = .ok (some k) → (∀ c ∈ after, ¬ c.Changes k) → Prog (runs it (before ++ [call] ++ after) empty) →
  (runs it (before ++ [call] ++ after) empty).val k = (runs it (before ++ [call]) empty).val k

/-- **Specification of C97.** The program may change a set that the library has returned without changing the events. -/
def ReturnedSetsOwn (it : Iter) : Prop := ∀ (before : List Call) (call : Call) (k : ℕ) (s : Finset EId),
  Prog (runs it before empty) → ((runs it before empty).run it call).1 = .ok (some k) → ((runs it (before ++ [call]) empty).run it (.change k s)).2.abs = (runs it (before ++ [call]) empty).abs

/-- an event `0`, the set of `0.Past` (object 0), the set `{0}` -/
def demoPast : List Call := [.newEvent none none none]
def demoAfter : List Call := [.newSet {0}, .newEvent none none (some 2)]

/-- **C97, refuted.** `p = a.Past` is the empty set; after `CausetEvent(future={a})`, `p` has an element. -/
theorem C97_kept_refuted : ¬ ReturnedSetsKept Iter.asc := by
  intro h
  have p1 := Prog.step empty Iter.asc (.newEvent none none none) Prog.start ⟨fun i hi => (nomatch hi), fun i hi => (nomatch hi)⟩ (fun x hx => absurd hx (Finset.notMem_empty x))
  have p2 := Prog.step _ Iter.asc (.past 0) p1 trivial trivial
  have p3 := Prog.step _ Iter.asc (.newSet {0}) p2 trivial trivial
  have p4 := Prog.step _ Iter.asc (.newEvent none none (some 2)) p3 ⟨fun i hi => (nomatch hi), fun i hi => by cases hi; exact ⟨by decide, by decide⟩⟩
    (fun x hx => absurd hx (Finset.notMem_empty x))
  have := h demoPast (.past 0) demoAfter 0 p1 (by decide) (by intro c hc; simp only [demoAfter, List.mem_cons, List.not_mem_nil, or_false] at hc; rcases hc with rfl | rfl <;> exact fun h => h) p4
  exact absurd this (by decide)

/-- **C97, refuted.** `b.Past.clear()` removes `a` from the past of `b`, while `b` is still in the future of `a`: the events are not a causal set any more. -/
theorem C97_own_refuted : ¬ ReturnedSetsOwn Iter.asc ∧ ¬ ((runs Iter.asc demo empty).run Iter.asc (.change 3 ∅)).2.abs.Valid ∧
    ((runs Iter.asc demo empty).run Iter.asc (.past 1)).1 = .ok (some 3) ∧ (runs Iter.asc demo empty).abs.Valid := by
  refine ⟨fun h => ?_, fun hv => ?_, by decide, demo_prog.good.2.inv.1⟩
  · have := h demo (.past 1) 3 ∅ demo_prog (by decide)
    have h1 := congrFun (congrArg Heap.prec this) 1
    exact absurd h1 (by decide)
  · have h1 : (0 : EId) ∈ ((runs Iter.asc demo empty).run Iter.asc (.change 3 ∅)).2.abs.prec 1 := (hv.past_eq 0 1).2 ((hv.future_eq 0 1).1 (by decide))
    exact absurd h1 (by decide)

/-- **C97.** `e.disjoin()` gives `e` other set objects, so a set that `e.Past` had returned keeps the elements that it had, and is no attribute any more (here `b.Past` of `demo`). -/
theorem C97_disjoin_stale : (runs Iter.asc (demo ++ [.link 1, .disjoin 1]) empty).val 3 = {0} ∧ (runs Iter.asc (demo ++ [.link 1, .disjoin 1]) empty).abs.prec 1 = ∅ ∧
    (runs Iter.asc (demo ++ [.link 1, .disjoin 1]) empty).abs.succ 0 = ∅ := by
  decide

end Objs
end Causets
