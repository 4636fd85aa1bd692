import Verif.Lemmas.ObjectsAbs

/-! # Set objects: creation of events, copies, causets -/

namespace Causets

open Function (update)

namespace Objs

variable {it : Iter} {o : Objs}

/-- every existing event has its attributes, and they are separated -/
structure Good (o : Objs) : Prop where
  sep : o.Sep
  ex : ∀ e, e < o.next → o.Ex e

theorem mutate_eq {e : EId} {f : Field} {k : ℕ} (hk : o.attr e f = some k) (g : Finset EId → Finset EId) : o.mutate e f g = o.change k g := by
  unfold mutate; rw [hk]

theorem Build.get {k : ℕ} {a b : Objs} (hb : Build k a b) {e : EId} {f : Field} (h : a.attr e f ≠ some k) : b.get e f = a.get e f := by
  unfold Objs.get
  rw [hb.attr]
  cases hj : a.attr e f with
  | none => rfl
  | some j => exact hb.val j (fun hji => h (by rw [hj, hji]))

/-- a loop that changes one object `k` and does not run over it -/
theorem build_loop {k i : ℕ} {G : Objs → EId → Finset EId → Finset EId} {G0 : EId → Finset EId → Finset EId} (ctx : List ℕ) (hik : i ≠ k)
    (hG : ∀ g, Build k o g → ∀ e ∈ o.val i, G g e = G0 e) :
    ∃ o', o.loop it ctx (fun e g => (.ok (), g.change k (G g e))) i = (.ok (), o') ∧ Build k o o' ∧
      o'.val k = (it.ord ctx (o.val i)).foldl (fun acc e => G0 e acc) (o.val k) := by
  have h1 := forSet_eq (P := Build k o) (body := fun e g => (.ok (), g.change k (G g e))) (i := i) (n := (o.val i).card)
    (fun g hg => by rw [hg.val i hik]) (it.ord ctx (o.val i)) (fun g x _ hg => hg.trans (build_change k _)) o (Build.refl k o)
  rw [runList_ok] at h1
  refine ⟨_, h1, foldl_inv (P := Build k o) _ (fun g x _ hg => hg.trans (build_change k _)) o (Build.refl k o), ?_⟩
  have hm : ∀ e ∈ it.ord ctx (o.val i), e ∈ o.val i := fun e he => (it.mem _ _ _).1 he
  revert hm
  generalize it.ord ctx (o.val i) = l
  intro hm
  have key : ∀ (l : List EId), (∀ e ∈ l, e ∈ o.val i) → ∀ g, Build k o g →
      (l.foldl (fun g e => g.change k (G g e)) g).val k = l.foldl (fun acc e => G0 e acc) (g.val k) := by
    intro l
    induction l with
    | nil => intro _ g _; rfl
    | cons x l ih =>
      intro hm g hg
      have h2 := ih (fun e he => hm e (List.mem_cons_of_mem _ he)) (g.change k (G g x)) (hg.trans (build_change k _))
      rw [List.foldl_cons, List.foldl_cons, h2]
      congr 1
      show update g.val k (G g x (g.val k)) k = _
      rw [Function.update_self, hG g hg x (hm x List.mem_cons_self)]
  exact key l hm o (Build.refl k o)

theorem gather_spec (h : o.Sep) {self : EId} {f : Field} {k : ℕ} (hk : o.attr self f = some k) (a : Option ℕ) (ha : ∀ i, a = some i → i ≠ k ∧ self ∉ o.val i) :
    ∃ o', o.gather it self f a = (.ok (), o') ∧ Build k o o' ∧
      o'.val k = (argList it o a).foldl (fun acc e => acc ∪ (o.get e f ∪ {e})) (o.val k) := by
  cases a with
  | none => exact ⟨o, rfl, Build.refl k o, rfl⟩
  | some i =>
    obtain ⟨hik, hself⟩ := ha i rfl
    have hfe : ∀ e, e ∈ o.val i → o.attr e f ≠ some k := fun e he hh => hself ((h.inj _ _ _ _ _ hk hh).1 ▸ he)
    have heq : o.gather it self f (some i) = o.loop it [] (fun e g => (.ok (), g.change k (fun s => s ∪ (g.get e f ∪ {e})))) i := by
      show forSet _ _ _ _ _ = forSet _ _ _ _ _
      have hP := forSet_eq (P := Build k o) (body := fun e g => ((.ok (), g.mutate self f (fun s => s ∪ (g.get e f ∪ {e}))) : Except Err Unit × Objs)) (i := i)
        (n := (o.val i).card) (fun g hg => by rw [hg.val i hik]) (it.ord [] (o.val i))
        (fun g x _ hg => by
          show Build k o (g.mutate self f _)
          rw [mutate_eq (by rw [hg.attr]; exact hk)]
          exact hg.trans (build_change k _)) o (Build.refl k o)
      have hQ := forSet_eq (P := Build k o) (body := fun e g => ((.ok (), g.change k (fun s => s ∪ (g.get e f ∪ {e}))) : Except Err Unit × Objs)) (i := i)
        (n := (o.val i).card) (fun g hg => by rw [hg.val i hik]) (it.ord [] (o.val i))
        (fun g x _ hg => hg.trans (build_change k (fun s => s ∪ (g.get x f ∪ {x})))) o (Build.refl k o)
      rw [hP, hQ]
      have key : ∀ (l : List EId) (g : Objs), Build k o g →
          runList (fun e g => ((.ok (), g.mutate self f (fun s => s ∪ (g.get e f ∪ {e}))) : Except Err Unit × Objs)) l g =
          runList (fun e g => ((.ok (), g.change k (fun s => s ∪ (g.get e f ∪ {e}))) : Except Err Unit × Objs)) l g := by
        intro l
        induction l with
        | nil => intro g _; rfl
        | cons x l ih =>
          intro g hg
          unfold runList
          dsimp only
          rw [mutate_eq (by rw [hg.attr]; exact hk)]
          exact ih _ (hg.trans (build_change k _))
      exact key _ o (Build.refl k o)
    rw [heq]
    exact build_loop (G := fun g e s => s ∪ (g.get e f ∪ {e})) (G0 := fun e s => s ∪ (o.get e f ∪ {e})) [] hik
      (fun g hg e he => by funext s; rw [hg.get (hfe e he)])

theorem attr_addToFuture (a b : EId) : (o.addToFuture a b).attr = o.attr := by
  unfold addToFuture
  split
  · rfl
  · dsimp only; rw [attr_mutate]; split
    · rw [attr_mutate, attr_mutate]
    · rfl

theorem attr_addToPast (a b : EId) : (o.addToPast a b).attr = o.attr := by
  unfold addToPast
  split
  · rfl
  · dsimp only; rw [attr_mutate]; split
    · rw [attr_mutate, attr_mutate]
    · rfl

theorem val_mutate_ne {e : EId} {f : Field} {k : ℕ} (hk : o.attr e f ≠ some k) (g : Finset EId → Finset EId) : (o.mutate e f g).val k = o.val k := by
  unfold mutate
  cases hi : o.attr e f with
  | none => rfl
  | some i => exact Function.update_of_ne (fun h : k = i => hk (by rw [hi, h])) _ _

/-- `_addToFuture` changes no other object than `_succ` and `_lsucc` of the event -/
theorem val_addToFuture_ne {a : EId} (b : EId) {k : ℕ} (h1 : o.attr a .succ ≠ some k) (h2 : o.attr a .lsucc ≠ some k) : (o.addToFuture a b).val k = o.val k := by
  unfold addToFuture
  split
  · rfl
  · dsimp only
    rw [val_mutate_ne]
    · split
      · rw [val_mutate_ne (by rw [attr_mutate]; exact h2), val_mutate_ne h2]
      · rfl
    · split
      · rw [attr_mutate, attr_mutate]; exact h1
      · exact h1

theorem val_addToPast_ne {a : EId} (b : EId) {k : ℕ} (h1 : o.attr a .prec ≠ some k) (h2 : o.attr a .lprec ≠ some k) : (o.addToPast a b).val k = o.val k := by
  unfold addToPast
  split
  · rfl
  · dsimp only
    rw [val_mutate_ne]
    · split
      · rw [val_mutate_ne (by rw [attr_mutate]; exact h2), val_mutate_ne h2]
      · rfl
    · split
      · rw [attr_mutate, attr_mutate]; exact h1
      · exact h1

theorem next_addToFuture (a b : EId) : (o.addToFuture a b).next = o.next := by
  unfold addToFuture
  split
  · rfl
  · dsimp only; rw [next_mutate]; split
    · rw [next_mutate, next_mutate]
    · rfl

theorem next_addToPast (a b : EId) : (o.addToPast a b).next = o.next := by
  unfold addToPast
  split
  · rfl
  · dsimp only; rw [next_mutate]; split
    · rw [next_mutate, next_mutate]
    · rfl

theorem nextSet_addToFuture (a b : EId) : (o.addToFuture a b).nextSet = o.nextSet := by
  unfold addToFuture
  split
  · rfl
  · dsimp only; rw [nextSet_mutate]; split
    · rw [nextSet_mutate, nextSet_mutate]
    · rfl

theorem nextSet_addToPast (a b : EId) : (o.addToPast a b).nextSet = o.nextSet := by
  unfold addToPast
  split
  · rfl
  · dsimp only; rw [nextSet_mutate]; split
    · rw [nextSet_mutate, nextSet_mutate]
    · rfl

/-- the state after `__init__` has assigned its attributes, and the numbers of the two set objects -/
theorem newEvent_alloc (h : o.Good) (hv : ∀ e f x, x ∈ o.get e f → x < o.next) (l : Option Label) (past future : Option ℕ)
    (hp : ∀ i, past = some i → i < o.nextSet ∧ ∀ x ∈ o.val i, x < o.next) (hf : ∀ i, future = some i → i < o.nextSet ∧ ∀ x ∈ o.val i, x < o.next) :
    ∃ o1 o2, ((o.newObject l).2.assign o.next .prec ∅).gather it o.next .prec past = (.ok (), o1) ∧
      (o1.assign o.next .succ ∅).gather it o.next .succ future = (.ok (), o2) ∧
      o2.Good ∧ o2.next = o.next + 1 ∧ o2.abs = o.abs.alloc l (argList it o past) (argList it o future) ∧
      o2.attr o.next .prec = some o.nextSet ∧ o2.attr o.next .succ = some (o.nextSet + 1) := by
  have s0 := sep_newObject h.sep l
  have s1 := (step_assign s0 o.next .prec ∅).sep
  have hk1 : ((o.newObject l).2.assign o.next .prec ∅).attr o.next .prec = some o.nextSet := by rw [attr_assign, if_pos ⟨rfl, rfl⟩]; rfl
  have hv1 : ∀ i, i < o.nextSet → ((o.newObject l).2.assign o.next .prec ∅).val i = o.val i := fun i hi => by
    show update o.val o.nextSet ∅ i = _
    exact Function.update_of_ne (ne_of_lt hi) _ _
  have hg1 : ∀ e f, e ≠ o.next → ((o.newObject l).2.assign o.next .prec ∅).get e f = o.get e f := fun e f he => by
    rw [get_assign_ne' s0 _ _ _ _ he, get_eq, opt_newObject, if_neg he, get_eq]
  obtain ⟨o1, e1, b1, v1⟩ := gather_spec (it := it) s1 hk1 past (fun i hi => by
    obtain ⟨h1, h2⟩ := hp i hi
    refine ⟨ne_of_lt h1, fun hh => ?_⟩
    rw [hv1 i h1] at hh
    exact lt_irrefl _ (h2 _ hh))
  have sep1 : o1.Sep := ⟨fun e f i => by rw [b1.attr, b1.nextSet]; exact s1.lt e f i, fun e f e' f' i => by rw [b1.attr]; exact s1.inj e f e' f' i⟩
  have hns1 : o1.nextSet = o.nextSet + 1 := b1.nextSet
  have s2 := (step_assign sep1 o.next .succ ∅).sep
  have hk2 : (o1.assign o.next .succ ∅).attr o.next .succ = some (o.nextSet + 1) := by rw [attr_assign, if_pos ⟨rfl, rfl⟩, hns1]
  have hv2 : ∀ i, i < o.nextSet → (o1.assign o.next .succ ∅).val i = o.val i := fun i hi => by
    show update o1.val o1.nextSet ∅ i = _
    rw [Function.update_of_ne (by rw [hns1]; omega), b1.val i (ne_of_lt hi), hv1 i hi]
  have hg2 : ∀ e f, e ≠ o.next → (o1.assign o.next .succ ∅).get e f = o.get e f := fun e f he => by
    rw [get_assign_ne' sep1 _ _ _ _ he, b1.get (fun hh => he (s1.inj _ _ _ _ _ hh hk1).1), hg1 e f he]
  obtain ⟨o2, e2, b2, v2⟩ := gather_spec (it := it) s2 hk2 future (fun i hi => by
    obtain ⟨h1, h2⟩ := hf i hi
    refine ⟨by omega, fun hh => ?_⟩
    rw [hv2 i h1] at hh
    exact lt_irrefl _ (h2 _ hh))
  have sep2 : o2.Sep := ⟨fun e f i => by rw [b2.attr, b2.nextSet]; exact s2.lt e f i, fun e f e' f' i => by rw [b2.attr]; exact s2.inj e f e' f' i⟩
  have attr2 : ∀ e f, o2.attr e f = if e = o.next then (match f with
      | .prec => some o.nextSet
      | .succ => some (o.nextSet + 1)
      | .lprec => none
      | .lsucc => none) else o.attr e f := fun e f => by
    rw [b2.attr, attr_assign, b1.attr, attr_assign, attr_newObject, hns1]
    by_cases he : e = o.next
    · subst he; cases f <;> simp <;> rfl
    · simp [he]
  have next2 : o2.next = o.next + 1 := by rw [b2.next]; show o1.next = _; rw [b1.next]; rfl
  have val2p : o2.val o.nextSet = (argList it o past).foldl (fun acc e => acc ∪ o.abs.presentOrPast e) ∅ := by
    rw [b2.val _ (by omega)]
    show update o1.val o1.nextSet ∅ o.nextSet = _
    rw [Function.update_of_ne (by rw [hns1]; omega), v1]
    have ha : argList it ((o.newObject l).2.assign o.next .prec ∅) past = argList it o past := by
      cases hpe : past with
      | none => rfl
      | some i => unfold argList; dsimp only; rw [hv1 i (hp i hpe).1]
    have hm : ∀ e ∈ argList it o past, e < o.next := by
      cases hpe : past with
      | none => intro e he; cases he
      | some i => intro e he; exact (hp i hpe).2 e ((it.mem _ _ _).1 he)
    rw [ha]
    have hstart : ((o.newObject l).2.assign o.next .prec ∅).val o.nextSet = ∅ := Function.update_self ..
    rw [hstart]
    exact List.foldl_ext _ _ _ (fun acc e he => by rw [hg1 e .prec (ne_of_lt (hm e he))]; rfl)
  have val2f : o2.val (o.nextSet + 1) = (argList it o future).foldl (fun acc e => acc ∪ o.abs.presentOrFuture e) ∅ := by
    rw [v2]
    have ha : argList it (o1.assign o.next .succ ∅) future = argList it o future := by
      cases hpe : future with
      | none => rfl
      | some i => unfold argList; dsimp only; rw [hv2 i (hf i hpe).1]
    have hm : ∀ e ∈ argList it o future, e < o.next := by
      cases hpe : future with
      | none => intro e he; cases he
      | some i => intro e he; exact (hf i hpe).2 e ((it.mem _ _ _).1 he)
    rw [ha]
    have hstart : (o1.assign o.next .succ ∅).val (o.nextSet + 1) = ∅ := by
      show update o1.val o1.nextSet ∅ (o.nextSet + 1) = ∅
      rw [hns1]; exact Function.update_self ..
    rw [hstart]
    exact List.foldl_ext _ _ _ (fun acc e he => by rw [hg2 e .succ (ne_of_lt (hm e he))]; rfl)
  have val2o : ∀ i, i < o.nextSet → o2.val i = o.val i := fun i hi => by rw [b2.val i (by omega), hv2 i hi]
  have opt2 : ∀ e f, e ≠ o.next → o2.opt e f = o.opt e f := fun e f he => by
    unfold opt
    rw [attr2, if_neg he]
    cases hj : o.attr e f with
    | none => rfl
    | some j => exact congrArg some (val2o j (h.sep.lt _ _ _ hj))
  refine ⟨o1, o2, e1, e2, ⟨sep2, fun e he => ?_⟩, next2, ?_, by rw [attr2, if_pos rfl], by rw [attr2, if_pos rfl]⟩
  · rw [next2] at he
    unfold Ex
    rw [attr2, attr2]
    by_cases hx : e = o.next
    · simp [hx]
    · rw [if_neg hx, if_neg hx]; exact h.ex e (by omega)
  · refine heap_ext next2 ?_ (fun e => ?_) (fun e => ?_) (fun e => ?_) (fun e => ?_)
    · show o2.label = _
      rw [b2.label]; show o1.label = _; rw [b1.label]; rfl
    · show o2.get e .prec = update o.abs.prec o.next _ e
      by_cases he : e = o.next
      · subst he
        rw [Function.update_self, get_eq]
        unfold opt
        rw [attr2, if_pos rfl]
        exact val2p
      · rw [Function.update_of_ne he, get_eq, opt2 e _ he, ← get_eq]; rfl
    · show o2.get e .succ = update o.abs.succ o.next _ e
      by_cases he : e = o.next
      · subst he
        rw [Function.update_self, get_eq]
        unfold opt
        rw [attr2, if_pos rfl]
        exact val2f
      · rw [Function.update_of_ne he, get_eq, opt2 e _ he, ← get_eq]; rfl
    · show o2.opt e .lprec = update o.abs.lprec o.next none e
      by_cases he : e = o.next
      · subst he
        rw [Function.update_self]
        unfold opt
        rw [attr2, if_pos rfl]
        rfl
      · rw [Function.update_of_ne he, opt2 e _ he]; rfl
    · show o2.opt e .lsucc = update o.abs.lsucc o.next none e
      by_cases he : e = o.next
      · subst he
        rw [Function.update_self]
        unfold opt
        rw [attr2, if_pos rfl]
        rfl
      · rw [Function.update_of_ne he, opt2 e _ he]; rfl


/-- what the loops of `__init__` over `self._prec` and `self._succ` keep: the attributes, the separation, the objects `k` and `k'` -/
structure Grow (o o' : Objs) (k k' : ℕ) : Prop where
  sep : o'.Sep
  next : o'.next = o.next
  attr : o'.attr = o.attr
  val : o'.val k = o.val k
  val' : o'.val k' = o.val k'

/-- `CausetEvent(...)` for set objects is the function on values; the iteration over `self._prec` and `self._succ` is never disturbed. -/
theorem newEvent_spec (h : o.Good) (hv : ∀ e f x, x ∈ o.get e f → x < o.next) (l : Option Label) (past future : Option ℕ)
    (hp : ∀ i, past = some i → i < o.nextSet ∧ ∀ x ∈ o.val i, x < o.next) (hf : ∀ i, future = some i → i < o.nextSet ∧ ∀ x ∈ o.val i, x < o.next) :
    (o.newEvent it l past future).1 = .ok o.next ∧ (o.newEvent it l past future).2.Good ∧
      (o.newEvent it l past future).2.abs = (o.abs.newEvent it l (argList it o past) (argList it o future)).2 := by
  obtain ⟨o1, o2, e1, e2, good2, next2, abs2, kp, ks⟩ := newEvent_alloc (it := it) h hv l past future hp hf
  have mem_past : ∀ x ∈ o2.val o.nextSet, x < o.next := fun x hx => by
    have hx' : x ∈ o2.abs.prec o.next := by rw [abs_prec]; unfold get; rw [kp]; exact hx
    rw [abs2] at hx'
    have hx2 : x ∈ (argList it o past).foldl (fun acc e => acc ∪ o.abs.presentOrPast e) ∅ := by
      have : (o.abs.alloc l (argList it o past) (argList it o future)).prec o.next = (argList it o past).foldl (fun acc e => acc ∪ o.abs.presentOrPast e) ∅ :=
        Function.update_self ..
      rw [← this]; exact hx'
    have hall : ∀ e ∈ argList it o past, e < o.next := by
      cases hpe : past with
      | none => intro e he; cases he
      | some i => intro e he; exact (hp i hpe).2 e ((it.mem _ _ _).1 he)
    exact foldl_inv (P := fun acc : Finset EId => ∀ x ∈ acc, x < o.next) (F := fun acc e => acc ∪ o.abs.presentOrPast e) (argList it o past)
      (fun acc e he ha y hy => by
        rcases Finset.mem_union.1 hy with hy | hy
        · exact ha y hy
        · rcases Finset.mem_union.1 hy with hy | hy
          · exact hv e .prec y hy
          · rw [Finset.mem_singleton.1 hy]; exact hall e he) ∅ (fun y hy => absurd hy (Finset.notMem_empty y)) x hx2
  have mem_future : ∀ x ∈ o2.val (o.nextSet + 1), x < o.next := fun x hx => by
    have hx' : x ∈ o2.abs.succ o.next := by rw [abs_succ]; unfold get; rw [ks]; exact hx
    rw [abs2] at hx'
    have hx2 : x ∈ (argList it o future).foldl (fun acc e => acc ∪ o.abs.presentOrFuture e) ∅ := by
      have : (o.abs.alloc l (argList it o past) (argList it o future)).succ o.next =
        (argList it o future).foldl (fun acc e => acc ∪ o.abs.presentOrFuture e) ∅ := Function.update_self ..
      rw [← this]; exact hx'
    have hall : ∀ e ∈ argList it o future, e < o.next := by
      cases hpe : future with
      | none => intro e he; cases he
      | some i => intro e he; exact (hf i hpe).2 e ((it.mem _ _ _).1 he)
    exact foldl_inv (P := fun acc : Finset EId => ∀ x ∈ acc, x < o.next) (F := fun acc e => acc ∪ o.abs.presentOrFuture e) (argList it o future)
      (fun acc e he ha y hy => by
        rcases Finset.mem_union.1 hy with hy | hy
        · exact ha y hy
        · rcases Finset.mem_union.1 hy with hy | hy
          · exact hv e .succ y hy
          · rw [Finset.mem_singleton.1 hy]; exact hall e he) ∅ (fun y hy => absurd hy (Finset.notMem_empty y)) x hx2
  -- an object of the new event is no object of another event
  have ne2 : ∀ (g : Objs), g.attr = o2.attr → ∀ e < o.next, ∀ f k, (k = o.nextSet ∨ k = o.nextSet + 1) → g.attr e f ≠ some k := by
    intro g hg e he f k hk hh
    rw [hg] at hh
    rcases hk with rfl | rfl
    · exact absurd (good2.sep.inj _ _ _ _ _ hh kp).1 (ne_of_lt he)
    · exact absurd (good2.sep.inj _ _ _ _ _ hh ks).1 (ne_of_lt he)
  have growF : ∀ g, Grow o2 g o.nextSet (o.nextSet + 1) → ∀ x < o.next, Grow o2 (g.addToFuture x o.next) o.nextSet (o.nextSet + 1) := fun g hg x hx =>
    ⟨(step_addToFuture hg.sep x o.next).sep, (next_addToFuture x o.next).trans hg.next, (attr_addToFuture x o.next).trans hg.attr,
      (val_addToFuture_ne o.next (ne2 g hg.attr x hx _ _ (Or.inl rfl)) (ne2 g hg.attr x hx _ _ (Or.inl rfl))).trans hg.val,
      (val_addToFuture_ne o.next (ne2 g hg.attr x hx _ _ (Or.inr rfl)) (ne2 g hg.attr x hx _ _ (Or.inr rfl))).trans hg.val'⟩
  have growP : ∀ g, Grow o2 g o.nextSet (o.nextSet + 1) → ∀ x < o.next, Grow o2 (g.addToPast x o.next) o.nextSet (o.nextSet + 1) := fun g hg x hx =>
    ⟨(step_addToPast hg.sep x o.next).sep, (next_addToPast x o.next).trans hg.next, (attr_addToPast x o.next).trans hg.attr,
      (val_addToPast_ne o.next (ne2 g hg.attr x hx _ _ (Or.inl rfl)) (ne2 g hg.attr x hx _ _ (Or.inl rfl))).trans hg.val,
      (val_addToPast_ne o.next (ne2 g hg.attr x hx _ _ (Or.inr rfl)) (ne2 g hg.attr x hx _ _ (Or.inr rfl))).trans hg.val'⟩
  have grow2 : Grow o2 o2 o.nextSet (o.nextSet + 1) := ⟨good2.sep, rfl, rfl, rfl, rfl⟩
  have lp : ∀ x ∈ it.ord [o.next, 0] (o2.val o.nextSet), x < o.next := fun x hx => mem_past x ((it.mem _ _ _).1 hx)
  have ls : ∀ x ∈ it.ord [o.next, 1] (o2.val (o.nextSet + 1)), x < o.next := fun x hx => mem_future x ((it.mem _ _ _).1 hx)
  -- first loop
  have l1 : o2.loopAttr it [o.next, 0] (fun e g => (.ok (), g.addToFuture e o.next)) o.next .prec =
      (.ok (), (it.ord [o.next, 0] (o2.val o.nextSet)).foldl (fun g e => g.addToFuture e o.next) o2) := by
    unfold loopAttr
    rw [kp]
    show forSet _ _ _ _ _ = _
    rw [forSet_eq (P := fun g => Grow o2 g o.nextSet (o.nextSet + 1)) (fun g hg => by rw [hg.val]) _ (fun g x hx hg => growF g hg x (lp x hx)) o2 grow2, runList_ok]
  have R1 := foldl_rel (R := fun g k => Grow o2 g o.nextSet (o.nextSet + 1) ∧ g.abs = k) (F := fun g e => g.addToFuture e o.next)
    (H := fun g e => (g.addToFuture e o.next).2) (it.ord [o.next, 0] (o2.val o.nextSet)) (fun g k x hx hh => ⟨growF g hh.1 x (lp x hx), by
      rw [abs_addToFuture hh.1.sep (by rw [hh.1.attr]; exact (good2.ex x (by have := lp x hx; omega)).2), hh.2]⟩) o2 o2.abs ⟨grow2, rfl⟩
  have hun : o.newEvent it l past future = (match o2.loopAttr it [o.next, 0] (fun e g => (.ok (), g.addToFuture e o.next)) o.next .prec with
      | (.error x, o3) => (.error x, o3)
      | (.ok _, o3) =>
        match o3.loopAttr it [o.next, 1] (fun e g => (.ok (), g.addToPast e o.next)) o.next .succ with
        | (.error x, o4) => (.error x, o4)
        | (.ok _, o4) => (.ok o.next, o4)) := by
    have hn : (o.newObject l).1 = o.next := rfl
    unfold newEvent
    dsimp only
    rw [hn, e1]
    dsimp only
    rw [e2]
    rfl
  rw [l1] at hun
  dsimp only at hun
  have pa : o2.abs.prec o.next = o2.val o.nextSet := by rw [abs_prec]; unfold get; rw [kp]
  generalize (it.ord [o.next, 0] (o2.val o.nextSet)).foldl (fun g e => g.addToFuture e o.next) o2 = o3 at R1 hun
  obtain ⟨g3, a3⟩ := R1
  have kp3 : o3.attr o.next .succ = some (o.nextSet + 1) := by rw [g3.attr]; exact ks
  have l2 : o3.loopAttr it [o.next, 1] (fun e g => (.ok (), g.addToPast e o.next)) o.next .succ =
      (.ok (), (it.ord [o.next, 1] (o3.val (o.nextSet + 1))).foldl (fun g e => g.addToPast e o.next) o3) := by
    unfold loopAttr
    rw [kp3]
    show forSet _ _ _ _ _ = _
    rw [forSet_eq (P := fun g => Grow o2 g o.nextSet (o.nextSet + 1)) (fun g hg => by rw [hg.val', g3.val']) _
      (fun g x hx hg => growP g hg x (ls x (by rw [← g3.val']; exact hx))) o3 g3, runList_ok]
  rw [l2] at hun
  dsimp only at hun
  have R2 := foldl_rel (R := fun g k => Grow o2 g o.nextSet (o.nextSet + 1) ∧ g.abs = k) (F := fun g e => g.addToPast e o.next)
    (H := fun g e => (g.addToPast e o.next).2) (it.ord [o.next, 1] (o3.val (o.nextSet + 1))) (fun g k x hx hh => by
      have hx' : x < o.next := ls x (by rw [← g3.val']; exact hx)
      exact ⟨growP g hh.1 x hx', by
      rw [abs_addToPast hh.1.sep (by rw [hh.1.attr]; exact (good2.ex x (by omega)).1), hh.2]⟩) o3 o3.abs ⟨g3, rfl⟩
  have pf : o3.abs.succ o.next = o3.val (o.nextSet + 1) := by rw [abs_succ]; unfold get; rw [kp3]
  rw [hun]
  refine ⟨rfl, ⟨R2.1.sep, fun e he => ?_⟩, ?_⟩
  · have he' : e < o2.next := R2.1.next ▸ he
    have := good2.ex e he'
    unfold Ex at this ⊢
    rw [R2.1.attr]; exact this
  · rw [R2.2]
    unfold Heap.newEvent
    dsimp only
    have hnx : o.abs.next = o.next := rfl
    rw [hnx, ← abs2, pa, ← a3, pf]

end Objs
end Causets
