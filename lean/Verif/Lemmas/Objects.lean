import Verif.SpecObjects

/-! # Set objects: separation, frames, refinement -/

namespace Causets

open Function (update)

namespace Objs

/-- No two attributes refer to the same set object, and attributes refer to objects that exist. -/
structure Sep (o : Objs) : Prop where
  lt : ∀ e f i, o.attr e f = some i → i < o.nextSet
  inj : ∀ e f e' f' i, o.attr e f = some i → o.attr e' f' = some i → e = e' ∧ f = f'

/-- the event has its attributes `_prec` and `_succ` -/
def Ex (o : Objs) (e : EId) : Prop := (o.attr e .prec).isSome ∧ (o.attr e .succ).isSome

/-- What all calls have in common: separation is kept, and a set object that is no attribute is neither changed nor becomes an attribute. -/
structure Step (o o' : Objs) : Prop where
  sep : o'.Sep
  mono : o.nextSet ≤ o'.nextSet
  keep : ∀ i, i < o.nextSet → ¬ o.IsAttr i → o'.val i = o.val i ∧ ¬ o'.IsAttr i
  next : o.next ≤ o'.next
  ex : ∀ e, e < o.next → o.Ex e → o'.Ex e

theorem Step.refl {o : Objs} (h : o.Sep) : Step o o := ⟨h, le_refl _, fun _ _ h => ⟨rfl, h⟩, le_refl _, fun _ _ h => h⟩

theorem Step.trans {a b c : Objs} (h1 : Step a b) (h2 : Step b c) : Step a c :=
  ⟨h2.sep, h1.mono.trans h2.mono, fun i hi hn => by
    obtain ⟨v1, n1⟩ := h1.keep i hi hn
    obtain ⟨v2, n2⟩ := h2.keep i (lt_of_lt_of_le hi h1.mono) n1
    exact ⟨v2.trans v1, n2⟩, h1.next.trans h2.next, fun e hl h => h2.ex e (lt_of_lt_of_le hl h1.next) (h1.ex e hl h)⟩

section basic
variable {o : Objs}

theorem step_mutate (h : o.Sep) (e : EId) (f : Field) (g : Finset EId → Finset EId) : Step o (o.mutate e f g) := by
  unfold mutate
  split
  · exact Step.refl h
  · rename_i i hi
    exact ⟨⟨h.lt, h.inj⟩, le_refl _, fun j _ hn => ⟨by
      unfold change
      exact Function.update_of_ne (fun hj : j = i => hn ⟨e, f, by rw [hi, hj]⟩) _ _, hn⟩, le_refl _, fun _ _ h => h⟩

theorem attr_assign (e : EId) (f : Field) (s : Finset EId) (e' : EId) (f' : Field) :
    (o.assign e f s).attr e' f' = if e' = e ∧ f' = f then some o.nextSet else o.attr e' f' := by
  show update o.attr e (update (o.attr e) f (some o.nextSet)) e' f' = _
  by_cases he : e' = e
  · subst he
    by_cases hf : f' = f
    · subst hf; simp
    · simp [hf]
  · simp [he]

theorem attr_delete (e : EId) (f : Field) (e' : EId) (f' : Field) :
    (o.delete e f).attr e' f' = if e' = e ∧ f' = f then none else o.attr e' f' := by
  show update o.attr e (update (o.attr e) f none) e' f' = _
  by_cases he : e' = e
  · subst he
    by_cases hf : f' = f
    · subst hf; simp
    · simp [hf]
  · simp [he]

theorem attr_mutate (e : EId) (f : Field) (g : Finset EId → Finset EId) : (o.mutate e f g).attr = o.attr := by
  unfold mutate; split <;> rfl

theorem step_assign (h : o.Sep) (e : EId) (f : Field) (s : Finset EId) : Step o (o.assign e f s) := by
  refine ⟨⟨fun e' f' i hi => ?_, fun e1 f1 e2 f2 i h1 h2 => ?_⟩, Nat.le_succ _, fun i hi hn => ⟨?_, ?_⟩, le_refl _, fun e' _ he => ?_⟩
  · rw [attr_assign] at hi
    split at hi
    · cases hi; exact Nat.lt_succ_self _
    · exact lt_trans (h.lt _ _ _ hi) (Nat.lt_succ_self _)
  · rw [attr_assign] at h1 h2
    split at h1 <;> split at h2
    · rename_i a b; exact ⟨a.1.trans b.1.symm, a.2.trans b.2.symm⟩
    · cases h1; exact absurd (h.lt _ _ _ h2) (lt_irrefl _)
    · cases h2; exact absurd (h.lt _ _ _ h1) (lt_irrefl _)
    · exact h.inj _ _ _ _ _ h1 h2
  · show update o.val o.nextSet s i = _
    exact Function.update_of_ne (ne_of_lt hi) _ _
  · rintro ⟨e', f', h1⟩
    rw [attr_assign] at h1
    split at h1
    · cases h1; exact lt_irrefl _ hi
    · exact hn ⟨_, _, h1⟩
  · unfold Ex at he ⊢
    rw [attr_assign, attr_assign]
    constructor
    · split
      · rfl
      · exact he.1
    · split
      · rfl
      · exact he.2

theorem step_delete_link (h : o.Sep) (e : EId) (f : Field) (hf : f = .lprec ∨ f = .lsucc) : Step o (o.delete e f) := by
  refine ⟨⟨fun e' f' i hi => ?_, fun e1 f1 e2 f2 i h1 h2 => ?_⟩, le_refl _, fun i hi hn => ⟨rfl, ?_⟩, le_refl _, fun e' _ he => ?_⟩
  · rw [attr_delete] at hi
    split at hi
    · cases hi
    · exact h.lt _ _ _ hi
  · rw [attr_delete] at h1 h2
    split at h1 <;> split at h2
    · cases h1
    · cases h1
    · cases h2
    · exact h.inj _ _ _ _ _ h1 h2
  · rintro ⟨e', f', h1⟩
    rw [attr_delete] at h1
    split at h1
    · cases h1
    · exact hn ⟨_, _, h1⟩
  · unfold Ex at he ⊢
    rw [attr_delete, attr_delete]
    constructor
    · split
      · rename_i hh; rcases hf with rfl | rfl <;> simp at hh
      · exact he.1
    · split
      · rename_i hh; rcases hf with rfl | rfl <;> simp at hh
      · exact he.2

theorem step_newSet (h : o.Sep) (s : Finset EId) : Step o (o.newSet s).2 :=
  ⟨⟨fun e f i hi => lt_trans (h.lt e f i hi) (Nat.lt_succ_self _), h.inj⟩, Nat.le_succ _, fun i hi hn =>
    ⟨Function.update_of_ne (ne_of_lt hi) _ _, hn⟩, le_refl _, fun _ _ h => h⟩

theorem newSet_not_attr (h : o.Sep) (s : Finset EId) : ¬ (o.newSet s).2.IsAttr (o.newSet s).1 := by
  rintro ⟨e, f, hi⟩
  exact lt_irrefl _ (h.lt e f _ hi)

/-- a change of an object that is no attribute keeps separation -/
theorem sep_change (h : o.Sep) (i : ℕ) (g : Finset EId → Finset EId) : (o.change i g).Sep := ⟨h.lt, h.inj⟩

theorem attr_newObject (l : Option Label) (e : EId) (f : Field) : (o.newObject l).2.attr e f = if e = o.next then none else o.attr e f := by
  show update o.attr o.next (fun _ => none) e f = _
  by_cases he : e = o.next
  · subst he; simp
  · simp [he]

theorem sep_newObject (h : o.Sep) (l : Option Label) : (o.newObject l).2.Sep := by
  refine ⟨fun e f i hi => ?_, fun e f e' f' i h1 h2 => ?_⟩
  · rw [attr_newObject] at hi
    split at hi
    · cases hi
    · exact h.lt _ _ _ hi
  · rw [attr_newObject] at h1 h2
    split at h1
    · cases h1
    split at h2
    · cases h2
    exact h.inj _ _ _ _ _ h1 h2

theorem step_newObject (h : o.Sep) (l : Option Label) : Step o (o.newObject l).2 := by
  refine ⟨sep_newObject h l, le_refl _, fun i _ hn => ⟨rfl, ?_⟩, Nat.le_succ _, fun e hl he => ?_⟩
  · rintro ⟨e, f, h1⟩
    rw [attr_newObject] at h1
    split at h1
    · cases h1
    · exact hn ⟨_, _, h1⟩
  · unfold Ex at he ⊢
    rw [attr_newObject, attr_newObject, if_neg (ne_of_lt hl), if_neg (ne_of_lt hl)]
    exact he

end basic

/-! ## Every function is a step -/

section steps
variable {it : Iter} {o : Objs}

theorem step_if {o o1 : Objs} {p : Prop} [Decidable p] (h : o.Sep) (h1 : Step o o1) : Step o (if p then o1 else o) := by
  split
  · exact h1
  · exact Step.refl h

theorem step_mutate2 (h : o.Sep) (e : EId) (f : Field) (g g' : Finset EId → Finset EId) : Step o ((o.mutate e f g).mutate e f g') :=
  (step_mutate h e f g).trans (step_mutate (step_mutate h e f g).sep e f g')

theorem step_addToPast (h : o.Sep) (a b : EId) : Step o (o.addToPast a b) := by
  unfold addToPast
  split
  · exact Step.refl h
  · have h1 : Step o (if o.hasBeenLinked a && o.isLink b a then
        (o.mutate a .lprec (fun s => s \ o.get b .prec)).mutate a .lprec (fun s => insert b s) else o) := step_if h (step_mutate2 h _ _ _ _)
    exact h1.trans (step_mutate h1.sep _ _ _)

theorem step_addToFuture (h : o.Sep) (a b : EId) : Step o (o.addToFuture a b) := by
  unfold addToFuture
  split
  · exact Step.refl h
  · have h1 : Step o (if o.hasBeenLinked a && o.isLink a b then
        (o.mutate a .lsucc (fun s => s \ o.get b .succ)).mutate a .lsucc (fun s => insert b s) else o) := step_if h (step_mutate2 h _ _ _ _)
    exact h1.trans (step_mutate h1.sep _ _ _)

theorem step_discard (h : o.Sep) (a b : EId) : Step o (o.discard a b) := by
  unfold discard
  split
  · have h1 : Step o (if o.hasBeenLinked a && decide (b ∈ o.get a .lprec) then
        (o.mutate a .lprec (fun s => s ∪ (o.get b .prec).filter (fun e => o.isLink e a))).mutate a .lprec (fun s => s.erase b) else o) :=
      step_if h (step_mutate2 h _ _ _ _)
    exact h1.trans (step_mutate h1.sep _ _ _)
  · split
    · have h1 : Step o (if o.hasBeenLinked a && decide (b ∈ o.get a .lsucc) then
          (o.mutate a .lsucc (fun s => s ∪ (o.get b .succ).filter (fun e => o.isLink a e))).mutate a .lsucc (fun s => s.erase b) else o) :=
        step_if h (step_mutate2 h _ _ _ _)
      exact h1.trans (step_mutate h1.sep _ _ _)
    · exact Step.refl h

theorem step_link (h : o.Sep) (e : EId) : Step o (o.link e) :=
  (step_assign h e .lprec _).trans (step_assign (step_assign h e .lprec _).sep e .lsucc _)

theorem step_unlink (h : o.Sep) (e : EId) : Step o (o.unlink e).2 := by
  have h1 := step_delete_link h e .lprec (Or.inl rfl)
  unfold unlink
  split
  · dsimp only
    split
    · exact h1.trans (step_delete_link h1.sep e .lsucc (Or.inr rfl))
    · exact h1
  · exact Step.refl h

theorem step_foldl {f : Objs → EId → Objs} (hf : ∀ (g : Objs) x, g.Sep → Step g (f g x)) : ∀ (l : List EId) {g : Objs}, g.Sep → Step g (l.foldl f g)
  | [], _, h => Step.refl h
  | x :: l, g, h => (hf g x h).trans (step_foldl hf l (hf g x h).sep)

theorem step_forSet {body : EId → Objs → Except Err Unit × Objs} (hb : ∀ (g : Objs) x, g.Sep → Step g (body x g).2) (i n : ℕ) :
    ∀ (l : List EId) {g : Objs}, g.Sep → Step g (forSet body i n l g).2
  | [], g, h => by unfold forSet; split <;> exact Step.refl h
  | x :: l, g, h => by
    unfold forSet
    split
    · have hs := hb g x h
      rcases hx : body x g with ⟨r, o1⟩
      rw [hx] at hs
      cases r with
      | error y => exact hs
      | ok y => exact hs.trans (step_forSet hb i n l hs.sep)
    · exact Step.refl h

theorem step_loop {body : EId → Objs → Except Err Unit × Objs} (hb : ∀ (g : Objs) x, g.Sep → Step g (body x g).2) (ctx : List ℕ) (i : ℕ) (h : o.Sep) :
    Step o (o.loop it ctx body i).2 := step_forSet hb _ _ _ h

theorem step_loopAttr {body : EId → Objs → Except Err Unit × Objs} (hb : ∀ (g : Objs) x, g.Sep → Step g (body x g).2) (ctx : List ℕ) (e : EId) (f : Field)
    (h : o.Sep) : Step o (o.loopAttr it ctx body e f).2 := by
  unfold loopAttr
  split
  · exact Step.refl h
  · exact step_loop hb _ _ h

theorem step_disjoin (h : o.Sep) (e : EId) : Step o (o.disjoin it e).2 := by
  have h1 := step_unlink h e
  unfold disjoin
  rcases hx : o.unlink e with ⟨r, o1⟩
  rw [hx] at h1
  cases r with
  | error y => exact h1
  | ok y =>
    dsimp only at h1 ⊢
    have h2 := step_foldl (f := fun g x => g.discard x e) (fun g x hg => step_discard hg x e) (it.ord [e, 0] (o1.coneVal e)) h1.sep
    have h3 := step_assign h2.sep e .prec ∅
    have h4 := step_foldl (f := fun g x => g.discard x e) (fun g x hg => step_discard hg x e)
      (it.ord [e, 1] ((((it.ord [e, 0] (o1.coneVal e)).foldl (fun g x => g.discard x e) o1).assign e .prec ∅).coneVal e)) h3.sep
    exact (((h1.trans h2).trans h3).trans h4).trans (step_assign h4.sep e .succ ∅)

theorem step_gather (h : o.Sep) (self : EId) (f : Field) (a : Option ℕ) : Step o (o.gather it self f a).2 := by
  cases a with
  | none => exact Step.refl h
  | some i => exact step_loop (fun g x hg => step_mutate hg _ _ _) _ _ h

theorem step_newEvent (h : o.Sep) (l : Option Label) (past future : Option ℕ) : Step o (o.newEvent it l past future).2 := by
  have h1 := step_newObject h l
  have h2 := h1.trans (step_assign h1.sep (o.newObject l).1 .prec ∅)
  have h3 := h2.trans (step_gather (it := it) h2.sep (o.newObject l).1 .prec past)
  unfold newEvent
  dsimp only
  split
  · rename_i hx; rw [hx] at h3; exact h3
  · rename_i hx
    rw [hx] at h3
    have h4 := h3.trans (step_assign h3.sep (o.newObject l).1 .succ ∅)
    have h5 := h4.trans (step_gather (it := it) h4.sep (o.newObject l).1 .succ future)
    split
    · rename_i hy; rw [hy] at h5; exact h5
    · rename_i hy
      rw [hy] at h5
      have h6 := h5.trans (step_loopAttr (it := it) (body := fun e g => (.ok (), g.addToFuture e (o.newObject l).1))
        (fun g x hg => step_addToFuture hg _ _) [(o.newObject l).1, 0] (o.newObject l).1 .prec h5.sep)
      split
      · rename_i hz; rw [hz] at h6; exact h6
      · rename_i hz
        rw [hz] at h6
        have h7 := h6.trans (step_loopAttr (it := it) (body := fun e g => (.ok (), g.addToPast e (o.newObject l).1))
          (fun g x hg => step_addToPast hg _ _) [(o.newObject l).1, 1] (o.newObject l).1 .succ h6.sep)
        split
        · rename_i hw; rw [hw] at h7; exact h7
        · rename_i hw; rw [hw] at h7; exact h7

theorem step_copy (h : o.Sep) (e : EId) : Step o (o.copy e).2 := by
  have h1 := step_newObject h (o.label e)
  have h2 := h1.trans (step_assign h1.sep (o.newObject (o.label e)).1 .prec ∅)
  have h3 := h2.trans (step_assign h2.sep (o.newObject (o.label e)).1 .succ ∅)
  unfold copy
  dsimp only
  generalize ((o.newObject (o.label e)).2.assign (o.newObject (o.label e)).1 .prec ∅).assign (o.newObject (o.label e)).1 .succ ∅ = o1 at h3 ⊢
  have h4 := h3.trans (step_assign h3.sep (o.newObject (o.label e)).1 .prec (o1.get e .prec))
  generalize o1.assign (o.newObject (o.label e)).1 .prec (o1.get e .prec) = o2 at h4 ⊢
  have h5 := h4.trans (step_assign h4.sep (o.newObject (o.label e)).1 .succ (o2.get e .succ))
  generalize o2.assign (o.newObject (o.label e)).1 .succ (o2.get e .succ) = o3 at h5 ⊢
  split
  · have h6 := h5.trans (step_assign h5.sep (o.newObject (o.label e)).1 .lprec (o3.get e .lprec))
    exact h6.trans (step_assign h6.sep _ .lsucc _)
  · exact h5

theorem step_linkPast (h : o.Sep) (e : EId) : Step o (o.linkPast e).2 := by
  unfold linkPast
  split
  · exact Step.refl h
  · exact step_link h e

theorem step_linkFuture (h : o.Sep) (e : EId) : Step o (o.linkFuture e).2 := by
  unfold linkFuture
  split
  · exact Step.refl h
  · exact step_link h e

/-- Building up a new set `k` in place: everything else stays. -/
structure Build (k : ℕ) (o o' : Objs) : Prop where
  next : o'.next = o.next
  label : o'.label = o.label
  nextSet : o'.nextSet = o.nextSet
  attr : o'.attr = o.attr
  val : ∀ i, i ≠ k → o'.val i = o.val i

theorem Build.refl (k : ℕ) (o : Objs) : Build k o o := ⟨rfl, rfl, rfl, rfl, fun _ _ => rfl⟩
theorem Build.trans {k : ℕ} {a b c : Objs} (h1 : Build k a b) (h2 : Build k b c) : Build k a c :=
  ⟨h2.next.trans h1.next, h2.label.trans h1.label, h2.nextSet.trans h1.nextSet, h2.attr.trans h1.attr, fun i hi => (h2.val i hi).trans (h1.val i hi)⟩
theorem build_change (k : ℕ) (g : Finset EId → Finset EId) : Build k o (o.change k g) :=
  ⟨rfl, rfl, rfl, rfl, fun _ hi => Function.update_of_ne hi _ _⟩

theorem build_forSet {k : ℕ} {G : Objs → EId → Finset EId → Finset EId} (i n : ℕ) :
    ∀ (l : List EId) (g : Objs), Build k g (forSet (fun e g => (.ok (), g.change k (G g e))) i n l g).2
  | [], g => by unfold forSet; split <;> exact Build.refl k g
  | x :: l, g => by
    unfold forSet
    split
    · exact (build_change k (G g x)).trans (build_forSet i n l _)
    · exact Build.refl k g

/-- a new set built up in place -/
theorem step_build (h : o.Sep) {o' : Objs} (hb : Build o.nextSet (o.newSet ∅).2 o') : Step o o' := by
  have h1 := step_newSet h ∅
  refine ⟨⟨fun e f i hi => ?_, fun e f e' f' i => ?_⟩, ?_, fun i hi hn => ⟨?_, ?_⟩, ?_, fun e _ he => ?_⟩
  · rw [hb.attr] at hi; rw [hb.nextSet]; exact h1.sep.lt e f i hi
  · rw [hb.attr]; exact h1.sep.inj e f e' f' i
  · rw [hb.nextSet]; exact h1.mono
  · rw [hb.val i (ne_of_lt hi)]; exact (h1.keep i hi hn).1
  · unfold IsAttr; rw [hb.attr]; exact hn
  · rw [hb.next]; exact le_refl _
  · unfold Ex; rw [hb.attr]; exact he

theorem build_gatherInto (ctx : List ℕ) (cone coneP : Objs → EId → Finset EId) (k i : ℕ) (p q : Bool) :
    Build k o (o.gatherInto it ctx cone coneP k i p q).2 := by
  unfold gatherInto
  split
  · exact build_forSet (G := fun g e s => s ∩ coneP g e) _ _ _ _
  · split
    · exact build_forSet (G := fun g e s => s ∩ cone g e) _ _ _ _
    · have h1 : Build k o (o.loop it ctx (fun e g => (.ok (), g.change k (fun s => s ∪ cone g e))) i).2 :=
        build_forSet (G := fun g e s => s ∪ cone g e) _ _ _ _
      split
      · rename_i hx; rw [hx] at h1; exact h1
      · rename_i hx
        rw [hx] at h1
        dsimp only
        split
        · exact h1.trans (build_change _ _)
        · exact h1

theorem build_gatherOf (ctx : List ℕ) (cone coneP : Objs → EId → Finset EId) (i : ℕ) (p q : Bool) :
    Build o.nextSet (o.newSet ∅).2 (o.gatherOf it ctx cone coneP i p q).2 := by
  have h1 := build_gatherInto (it := it) (o := (o.newSet ∅).2) ctx cone coneP (o.newSet ∅).1 i p q
  unfold gatherOf
  split
  · rename_i hx; rw [hx] at h1; exact h1
  · rename_i hx; rw [hx] at h1; exact h1

theorem gatherOf_ok (ctx : List ℕ) (cone coneP : Objs → EId → Finset EId) (i : ℕ) (p q : Bool) {k : ℕ} {o' : Objs}
    (h : o.gatherOf it ctx cone coneP i p q = (.ok k, o')) : k = o.nextSet := by
  unfold gatherOf at h
  split at h
  · cases h
  · cases h; rfl

theorem step_gatherOf (h : o.Sep) (ctx : List ℕ) (cone coneP : Objs → EId → Finset EId) (i : ℕ) (p q : Bool) :
    Step o (o.gatherOf it ctx cone coneP i p q).2 := step_build h (build_gatherOf ctx cone coneP i p q)

theorem step_initLoop : ∀ (fuel i : ℕ) {o : Objs}, o.Sep → Step o (initLoop it fuel i o).2
  | 0, _, _, h => Step.refl h
  | fuel + 1, i, o, h => by
    have h1 : Step o (o.coneOf it i true false).2 := step_gatherOf h _ _ _ _ _ _
    unfold initLoop
    split
    · rename_i hx; rw [hx] at h1; exact h1
    · rename_i hx
      rw [hx] at h1
      split
      · exact h1
      · exact h1.trans (step_initLoop fuel _ h1.sep)

theorem step_mergeLoop (h : o.Sep) (i j : ℕ) : Step o (o.mergeLoop it i j).2 :=
  step_loop (fun g p hg => step_loop (fun g' f hg' => (step_addToFuture hg' p f).trans (step_addToPast (step_addToFuture hg' p f).sep f p)) _ _ hg) _ _ h

theorem step_merge (h : o.Sep) (i j : ℕ) (d : Bool) : Step o (o.merge it i j d).2 := by
  have h1 : Step o (if d then ((.ok (), o) : Except Err Unit × Objs) else o.mergeLoop it i j).2 := by
    split
    · exact Step.refl h
    · exact step_mergeLoop h i j
  unfold merge
  split
  · rename_i hx; rw [hx] at h1; exact h1
  · rename_i o1 hx
    rw [hx] at h1
    have h2 := h1.trans (step_newSet h1.sep (o1.val i ∪ o1.val j))
    exact h2.trans (step_initLoop _ _ h2.sep)

theorem step_addLsucc (h : o.Sep) (b a : EId) : Step o (o.addLsucc b a).2 := by
  unfold addLsucc
  split
  · exact step_mutate h _ _ _
  · exact Step.refl h

theorem step_causetLink (h : o.Sep) (c : ℕ) : Step o (o.causetLink it c).2 := by
  have h1 : Step o (o.loop it [286] (fun e g => (.ok (), g.assign e .lsucc ∅)) c).2 := step_loop (fun g e hg => step_assign hg e .lsucc ∅) _ _ h
  unfold causetLink
  split
  · rename_i hx; rw [hx] at h1; exact h1
  · rename_i hx
    rw [hx] at h1
    refine h1.trans (step_loop (fun g b hg => ?_) _ _ h1.sep)
    have h2 := step_assign hg b .lprec ((g.get b .prec).filter (fun a => g.isLink a b))
    exact h2.trans (step_loopAttr (fun g' a hg' => step_addLsucc hg' b a) _ _ _ h2.sep)

theorem step_causetUnlink (h : o.Sep) (c : ℕ) : Step o (o.causetUnlink it c).2 :=
  step_loop (fun g e hg => by
    split
    · exact step_unlink hg e
    · exact Step.refl hg) _ _ h

end steps

end Objs
end Causets
