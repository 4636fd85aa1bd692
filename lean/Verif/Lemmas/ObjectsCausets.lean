import Verif.Lemmas.ObjectsCalls

/-! # Set objects: copies, link queries, causets -/

namespace Causets

open Function (update)

namespace Objs

variable {it : Iter} {o : Objs}

theorem opt_copy (h : o.Good) {e : EId} (he : e < o.next) (x : EId) (f : Field) : (o.copy e).2.opt x f =
    if x = o.next then (match f with
      | .prec => some (o.get e .prec)
      | .succ => some (o.get e .succ)
      | .lprec => if o.hasBeenLinked e then o.opt e .lprec else none
      | .lsucc => if o.hasBeenLinked e then o.opt e .lsucc else none) else o.opt x f := by
  have hne : e ≠ o.next := ne_of_lt he
  have s0 := sep_newObject h.sep (o.label e)
  have hr : (o.newObject (o.label e)).1 = o.next := rfl
  have p0 : ∀ x f, x ≠ o.next → (o.newObject (o.label e)).2.opt x f = o.opt x f := fun x f hx => by rw [opt_newObject, if_neg hx]
  have n0 : ∀ f, (o.newObject (o.label e)).2.opt o.next f = none := fun f => by rw [opt_newObject, if_pos rfl]
  unfold copy
  dsimp only
  rw [hr]
  generalize (o.newObject (o.label e)).2 = a0 at s0 p0 n0 ⊢
  have s1 := (step_assign s0 o.next .prec ∅).sep
  have q1 := opt_assign s0 o.next .prec ∅
  generalize a0.assign o.next .prec ∅ = a1 at s1 q1 ⊢
  have s2 := (step_assign s1 o.next .succ ∅).sep
  have q2 := opt_assign s1 o.next .succ ∅
  generalize a1.assign o.next .succ ∅ = a2 at s2 q2 ⊢
  have g2 : ∀ f, a2.opt e f = o.opt e f := fun f => by rw [q2, if_neg (fun hh => hne hh.1), q1, if_neg (fun hh => hne hh.1), p0 e f hne]
  have g2' : a2.get e .prec = o.get e .prec := by rw [get_eq, g2, get_eq]
  rw [g2']
  have s3 := (step_assign s2 o.next .prec (o.get e .prec)).sep
  have q3 := opt_assign s2 o.next .prec (o.get e .prec)
  generalize a2.assign o.next .prec (o.get e .prec) = a3 at s3 q3 ⊢
  have g3 : a3.get e .succ = o.get e .succ := by rw [get_eq, q3, if_neg (fun hh => hne hh.1), g2, get_eq]
  rw [g3]
  have s4 := (step_assign s3 o.next .succ (o.get e .succ)).sep
  have q4 := opt_assign s3 o.next .succ (o.get e .succ)
  generalize a3.assign o.next .succ (o.get e .succ) = a4 at s4 q4 ⊢
  have g4 : ∀ f, a4.opt e f = o.opt e f := fun f => by rw [q4, if_neg (fun hh => hne hh.1), q3, if_neg (fun hh => hne hh.1), g2]
  have hl : a4.hasBeenLinked e = o.hasBeenLinked e := by
    rw [← hasBeenLinked_abs, ← hasBeenLinked_abs]
    unfold Heap.hasBeenLinked
    rw [abs_lprec, abs_lsucc, abs_lprec, abs_lsucc, g4, g4]
  have x4 : ∀ x f, x ≠ o.next → a4.opt x f = o.opt x f := fun x f hx => by
    rw [q4, if_neg (fun hh => hx hh.1), q3, if_neg (fun hh => hx hh.1), q2, if_neg (fun hh => hx hh.1), q1, if_neg (fun hh => hx hh.1), p0 x f hx]
  rw [hl]
  by_cases hb : o.hasBeenLinked e = true
  · rw [if_pos hb, if_pos hb, if_pos hb]
    have s5 := (step_assign s4 o.next .lprec (a4.get e .lprec)).sep
    have q5 := opt_assign s4 o.next .lprec (a4.get e .lprec)
    generalize a4.assign o.next .lprec (a4.get e .lprec) = a5 at s5 q5 ⊢
    have g5 : a5.opt e .lsucc = o.opt e .lsucc := by rw [q5, if_neg (fun hh => hne hh.1), g4]
    rw [opt_assign s5]
    have hsome : (o.opt e .lprec).isSome ∧ (o.opt e .lsucc).isSome := by
      unfold hasBeenLinked at hb
      rw [Bool.and_eq_true] at hb
      unfold opt
      rw [Option.isSome_map, Option.isSome_map]; exact hb
    obtain ⟨u, hu⟩ := Option.isSome_iff_exists.1 hsome.1
    obtain ⟨w, hw⟩ := Option.isSome_iff_exists.1 hsome.2
    by_cases hx : x = o.next
    · subst hx
      rw [if_pos rfl]
      cases f
      · rw [if_neg (by simp), q5, if_neg (by simp), q4, if_neg (by simp), q3, if_pos ⟨rfl, rfl⟩]
      · rw [if_neg (by simp), q5, if_neg (by simp), q4, if_pos ⟨rfl, rfl⟩]
      · rw [if_neg (by simp), q5, if_pos ⟨rfl, rfl⟩, get_eq, g4, hu]; rfl
      · rw [if_pos ⟨rfl, rfl⟩, get_eq, g5, hw]; rfl
    · rw [if_neg hx, if_neg (fun hh => hx hh.1), q5, if_neg (fun hh => hx hh.1), x4 x f hx]
  · rw [if_neg hb, if_neg hb, if_neg hb]
    by_cases hx : x = o.next
    · subst hx
      rw [if_pos rfl]
      cases f
      · rw [q4, if_neg (by simp), q3, if_pos ⟨rfl, rfl⟩]
      · rw [q4, if_pos ⟨rfl, rfl⟩]
      · rw [q4, if_neg (by simp), q3, if_neg (by simp), q2, if_neg (by simp), q1, if_neg (by simp), n0]
      · rw [q4, if_neg (by simp), q3, if_neg (by simp), q2, if_neg (by simp), q1, if_neg (by simp), n0]
    · rw [if_neg hx, x4 x f hx]

theorem copy_fields (e : EId) : (o.copy e).1 = o.next ∧ (o.copy e).2.next = o.next + 1 ∧ (o.copy e).2.label = update o.label o.next (o.label e) := by
  refine ⟨rfl, ?_, ?_⟩
  · unfold copy; dsimp only; split <;> rfl
  · unfold copy; dsimp only; split <;> rfl

theorem isSome_opt (e : EId) (f : Field) : (o.opt e f).isSome = (o.attr e f).isSome := by unfold opt; exact Option.isSome_map

theorem abs_copy_aux (h : o.Good) {e : EId} (he : e < o.next) (ll : Option Label) (hll : ll = o.label e) :
    (o.copy e).2.abs = (let h1 := o.abs.alloc ll [] []
      let h2 : Heap := { h1 with prec := update h1.prec o.abs.next (o.abs.prec e), succ := update h1.succ o.abs.next (o.abs.succ e) }
      if o.abs.hasBeenLinked e then { h2 with lprec := update h2.lprec o.abs.next (o.abs.lprec e), lsucc := update h2.lsucc o.abs.next (o.abs.lsucc e) } else h2) := by
  obtain ⟨c1, c2, c3⟩ := copy_fields (o := o) e
  have hnx : o.abs.next = o.next := rfl
  subst hll
  dsimp only
  rw [hnx, hasBeenLinked_abs]
  have get_copy : ∀ x f, (o.copy e).2.get x f = ((o.copy e).2.opt x f).getD ∅ := fun x f => get_eq x f
  by_cases hb : o.hasBeenLinked e = true
  · rw [if_pos hb]
    refine heap_ext c2 c3 (fun x => ?_) (fun x => ?_) (fun x => ?_) (fun x => ?_)
    · rw [abs_prec, get_copy, opt_copy h he]
      by_cases hx : x = o.next
      · subst hx; simp [Heap.alloc, abs_prec]
      · simp [Heap.alloc, hx, abs_prec, get_eq, hnx]
    · rw [abs_succ, get_copy, opt_copy h he]
      by_cases hx : x = o.next
      · subst hx; simp [Heap.alloc, abs_succ]
      · simp [Heap.alloc, hx, abs_succ, get_eq, hnx]
    · rw [abs_lprec, opt_copy h he]
      by_cases hx : x = o.next
      · subst hx; simp [abs_lprec, hb]
      · simp [Heap.alloc, hx, abs_lprec, hnx]
    · rw [abs_lsucc, opt_copy h he]
      by_cases hx : x = o.next
      · subst hx; simp [abs_lsucc, hb]
      · simp [Heap.alloc, hx, abs_lsucc, hnx]
  · rw [if_neg hb]
    refine heap_ext c2 c3 (fun x => ?_) (fun x => ?_) (fun x => ?_) (fun x => ?_)
    · rw [abs_prec, get_copy, opt_copy h he]
      by_cases hx : x = o.next
      · subst hx; simp [Heap.alloc, abs_prec]
      · simp [Heap.alloc, hx, abs_prec, get_eq, hnx]
    · rw [abs_succ, get_copy, opt_copy h he]
      by_cases hx : x = o.next
      · subst hx; simp [Heap.alloc, abs_succ]
      · simp [Heap.alloc, hx, abs_succ, get_eq, hnx]
    · rw [abs_lprec, opt_copy h he]
      by_cases hx : x = o.next
      · subst hx; simp [Heap.alloc, hb, hnx]
      · simp [Heap.alloc, hx, abs_lprec, hnx]
    · rw [abs_lsucc, opt_copy h he]
      by_cases hx : x = o.next
      · subst hx; simp [Heap.alloc, hb, hnx]
      · simp [Heap.alloc, hx, abs_lsucc, hnx]

theorem copy_spec (h : o.Good) {e : EId} (he : e < o.next) :
    (o.copy e).1 = (o.abs.copy e).1 ∧ (o.copy e).2.Good ∧ (o.copy e).2.abs = (o.abs.copy e).2 := by
  obtain ⟨c1, c2, c3⟩ := copy_fields (o := o) e
  refine ⟨rfl, ⟨(step_copy h.sep e).sep, fun x hx => ?_⟩, ?_⟩
  · unfold Ex
    rw [← isSome_opt, ← isSome_opt, opt_copy h he, opt_copy h he]
    by_cases hxn : x = o.next
    · rw [if_pos hxn, if_pos hxn]; exact ⟨rfl, rfl⟩
    · rw [if_neg hxn, if_neg hxn, isSome_opt, isSome_opt]
      exact h.ex x (by rw [c2] at hx; omega)
  · unfold Heap.copy
    refine abs_copy_aux h he _ ?_
    have hlab : o.abs.label e = o.label e := rfl
    rw [hlab]
    rcases o.label e with _ | _ | _ <;> rfl

/-! ## Link queries -/

theorem linkPast_spec (h : o.Sep) (e : EId) : (o.linkPast e).1.map (o.linkPast e).2.val = some (Causets.linkPast e o.abs).1 ∧ (o.linkPast e).2.abs = (Causets.linkPast e o.abs).2 := by
  unfold linkPast Causets.linkPast
  rw [abs_lprec]
  unfold opt
  cases hp : o.attr e .lprec with
  | none =>
    simp only [Option.isSome_none, Option.map_none]
    refine ⟨?_, abs_link h e⟩
    show (o.link e).opt e .lprec = some (o.abs.pastLinks e)
    rw [← abs_lprec, abs_link h]
    show update o.abs.lprec e (some (o.abs.pastLinks e)) e = _
    rw [Function.update_self]
  | some i =>
    simp only [Option.isSome_some, if_true, Option.map_some]
    exact ⟨trivial, trivial⟩

theorem linkFuture_spec (h : o.Sep) (e : EId) :
    (o.linkFuture e).1.map (o.linkFuture e).2.val = some (Causets.linkFuture e o.abs).1 ∧ (o.linkFuture e).2.abs = (Causets.linkFuture e o.abs).2 := by
  unfold linkFuture Causets.linkFuture
  rw [abs_lsucc]
  unfold opt
  cases hp : o.attr e .lsucc with
  | none =>
    simp only [Option.isSome_none, Option.map_none]
    refine ⟨?_, abs_link h e⟩
    show (o.link e).opt e .lsucc = some (o.abs.futureLinks e)
    rw [← abs_lsucc, abs_link h]
    show update o.abs.lsucc e (some (o.abs.futureLinks e)) e = _
    rw [Function.update_self]
  | some i =>
    simp only [Option.isSome_some, if_true, Option.map_some]
    exact ⟨trivial, trivial⟩


/-! ## `PastOf`, `FutureOf`, `ConeOf`, `Causet(...)` -/

/-- the value of the loops -/
def gatherVal (it : Iter) (ctx : List ℕ) (cone coneP : EId → Finset EId) (s : Finset EId) (p q : Bool) : Finset EId :=
  if p && q then (it.ord ctx s).foldl (fun acc e => acc ∩ coneP e) ∅
  else if q then (it.ord ctx s).foldl (fun acc e => acc ∩ cone e) ∅
  else
    let r := (it.ord ctx s).foldl (fun acc e => acc ∪ cone e) ∅
    if p then r ∪ s else r

theorem gatherOf_spec (h : o.Sep) (ctx : List ℕ) {cone coneP : Objs → EId → Finset EId}
    (hc : ∀ g, g.attr = o.attr → (∀ i, i < o.nextSet → g.val i = o.val i) → cone g = cone o)
    (hcP : ∀ g, g.attr = o.attr → (∀ i, i < o.nextSet → g.val i = o.val i) → coneP g = coneP o) {i : ℕ} (hi : i < o.nextSet) (p q : Bool) :
    ∃ o', o.gatherOf it ctx cone coneP i p q = (.ok o.nextSet, o') ∧ Build o.nextSet (o.newSet ∅).2 o' ∧
      o'.val o.nextSet = gatherVal it ctx (cone o) (coneP o) (o.val i) p q := by
  have hik : i ≠ o.nextSet := ne_of_lt hi
  have hvi : ∀ j, j < o.nextSet → (o.newSet ∅).2.val j = o.val j := fun j hj => Function.update_of_ne (ne_of_lt hj) _ _
  have hv0 : (o.newSet ∅).2.val o.nextSet = ∅ := Function.update_self ..
  have hB : ∀ g, Build o.nextSet (o.newSet ∅).2 g → g.attr = o.attr ∧ ∀ j, j < o.nextSet → g.val j = o.val j := fun g hg =>
    ⟨hg.attr, fun j hj => (hg.val j (ne_of_lt hj)).trans (hvi j hj)⟩
  have hc1 : ∀ g, Build o.nextSet (o.newSet ∅).2 g → cone g = cone o := fun g hg => hc g (hB g hg).1 (hB g hg).2
  have hc2 : ∀ g, Build o.nextSet (o.newSet ∅).2 g → coneP g = coneP o := fun g hg => hcP g (hB g hg).1 (hB g hg).2
  unfold gatherOf gatherInto gatherVal
  have hk : (o.newSet ∅).1 = o.nextSet := rfl
  rw [hk]
  by_cases hpq : (p && q) = true
  · obtain ⟨o', e1, b1, v1⟩ := build_loop (it := it) (o := (o.newSet ∅).2) (G := fun g e s => s ∩ coneP g e) (G0 := fun e s => s ∩ coneP o e) ctx hik
      (fun g hg e _ => by rw [hc2 g hg])
    rw [if_pos hpq, if_pos hpq, e1]
    refine ⟨o', rfl, b1, ?_⟩
    rw [v1, hv0, hvi i hi]
  · rw [if_neg hpq, if_neg hpq]
    by_cases hq : q = true
    · obtain ⟨o', e1, b1, v1⟩ := build_loop (it := it) (o := (o.newSet ∅).2) (G := fun g e s => s ∩ cone g e) (G0 := fun e s => s ∩ cone o e) ctx hik
        (fun g hg e _ => by rw [hc1 g hg])
      rw [if_pos hq, if_pos hq, e1]
      refine ⟨o', rfl, b1, ?_⟩
      rw [v1, hv0, hvi i hi]
    · rw [if_neg hq, if_neg hq]
      obtain ⟨o', e1, b1, v1⟩ := build_loop (it := it) (o := (o.newSet ∅).2) (G := fun g e s => s ∪ cone g e) (G0 := fun e s => s ∪ cone o e) ctx hik
        (fun g hg e _ => by rw [hc1 g hg])
      rw [e1]
      by_cases hp : p = true
      · subst hp
        refine ⟨_, rfl, b1.trans (build_change o.nextSet (fun s => s ∪ o'.val i)), ?_⟩
        show update o'.val o.nextSet (o'.val o.nextSet ∪ o'.val i) o.nextSet = _
        rw [Function.update_self, v1, hv0, hvi i hi, b1.val i hik, hvi i hi]
        rfl
      · have hp' : p = false := by simpa using hp
        subst hp'
        refine ⟨_, rfl, b1, ?_⟩
        show o'.val o.nextSet = _
        rw [v1, hv0, hvi i hi]
        rfl

theorem get_congr (h : o.Sep) {g : Objs} (h1 : g.attr = o.attr) (h2 : ∀ i, i < o.nextSet → g.val i = o.val i) (e : EId) (f : Field) : g.get e f = o.get e f := by
  unfold get
  rw [h1]
  cases hj : o.attr e f with
  | none => rfl
  | some j => exact h2 j (h.lt _ _ _ hj)

/-- what a function that returns a new set does: the returned object is new and no attribute, nothing else has changed -/
structure NewSet (o o' : Objs) (k : ℕ) (s : Finset EId) : Prop where
  step : Step o o'
  abs : o'.abs = o.abs
  next : o'.next = o.next
  attr : o'.attr = o.attr
  new : o.nextSet ≤ k ∧ k < o'.nextSet
  notAttr : ¬ o'.IsAttr k
  val : o'.val k = s
  old : ∀ i, i < o.nextSet → o'.val i = o.val i

theorem newSet_of_build (h : o.Sep) {o' : Objs} (hb : Build o.nextSet (o.newSet ∅).2 o') {s : Finset EId} (hv : o'.val o.nextSet = s) :
    NewSet o o' o.nextSet s := by
  refine ⟨step_build h hb, ?_, hb.next, hb.attr, ⟨le_refl _, by rw [hb.nextSet]; exact Nat.lt_succ_self _⟩, ?_, hv, fun i hi => ?_⟩
  · rw [abs_build (newSet_not_attr h ∅) hb, abs_newSet h]
  · rintro ⟨e, f, hh⟩
    rw [hb.attr] at hh
    exact lt_irrefl _ (h.lt _ _ _ hh)
  · rw [hb.val i (ne_of_lt hi)]; exact Function.update_of_ne (ne_of_lt hi) _ _

theorem pastOf_spec (h : o.Sep) {i : ℕ} (hi : i < o.nextSet) (p q : Bool) :
    ∃ o' k, o.pastOf it i p q = (.ok k, o') ∧ NewSet o o' k (o.abs.pastOf it (o.val i) p q) := by
  obtain ⟨o', e1, b1, v1⟩ := gatherOf_spec (it := it) h [546] (cone := fun g e => g.get e .prec) (coneP := fun g e => g.get e .prec ∪ {e})
    (fun g h1 h2 => by funext e; exact get_congr h h1 h2 e .prec) (fun g h1 h2 => by funext e; rw [get_congr h h1 h2 e .prec]) hi p q
  exact ⟨o', _, e1, newSet_of_build h b1 v1⟩

theorem futureOf_spec (h : o.Sep) {i : ℕ} (hi : i < o.nextSet) (p q : Bool) :
    ∃ o' k, o.futureOf it i p q = (.ok k, o') ∧ NewSet o o' k (o.abs.futureOf it (o.val i) p q) := by
  obtain ⟨o', e1, b1, v1⟩ := gatherOf_spec (it := it) h [567] (cone := fun g e => g.get e .succ) (coneP := fun g e => g.get e .succ ∪ {e})
    (fun g h1 h2 => by funext e; exact get_congr h h1 h2 e .succ) (fun g h1 h2 => by funext e; rw [get_congr h h1 h2 e .succ]) hi p q
  exact ⟨o', _, e1, newSet_of_build h b1 v1⟩

theorem coneOf_spec (h : o.Sep) {i : ℕ} (hi : i < o.nextSet) (p q : Bool) :
    ∃ o' k, o.coneOf it i p q = (.ok k, o') ∧ NewSet o o' k (o.abs.coneOf it (o.val i) p q) := by
  obtain ⟨o', e1, b1, v1⟩ := gatherOf_spec (it := it) h [588] (cone := fun g e => g.get e .prec ∪ g.get e .succ) (coneP := fun g e => g.coneVal e)
    (fun g h1 h2 => by funext e; rw [get_congr h h1 h2 e .prec, get_congr h h1 h2 e .succ])
    (fun g h1 h2 => by funext e; unfold coneVal; rw [get_congr h h1 h2 e .prec, get_congr h h1 h2 e .succ]) hi p q
  exact ⟨o', _, e1, newSet_of_build h b1 v1⟩

/-- `NewSet` or an error of the function on values -/
def Returns (o : Objs) (r : Except Err ℕ × Objs) (v : Except Err (Finset EId)) : Prop := match v with
  | .error x => r.1 = .error x ∧ r.2.abs = o.abs ∧ Step o r.2 ∧ r.2.next = o.next ∧ r.2.attr = o.attr
  | .ok s => ∃ k, r.1 = .ok k ∧ NewSet o r.2 k s

theorem initLoop_spec : ∀ (fuel : ℕ) (o : Objs), o.Sep → ∀ i, i < o.nextSet → Returns o (initLoop it fuel i o) (o.abs.initLoop it fuel (o.val i))
  | 0, o, h, i, _ => ⟨rfl, rfl, Step.refl h, rfl, rfl⟩
  | fuel + 1, o, h, i, hi => by
    obtain ⟨o1, k, e1, n1⟩ := coneOf_spec (it := it) h hi true false
    unfold initLoop Heap.initLoop
    rw [e1]
    dsimp only
    rw [n1.val]
    by_cases hc : (o.abs.coneOf it (o.val i) true false).card = (o.val i).card
    · rw [if_pos hc, if_pos hc]
      exact ⟨k, rfl, n1⟩
    · rw [if_neg hc, if_neg hc]
      have ih := initLoop_spec fuel o1 n1.step.sep k n1.new.2
      rw [n1.val, n1.abs] at ih
      unfold Returns at ih ⊢
      cases hv : o.abs.initLoop it fuel (o.abs.coneOf it (o.val i) true false) with
      | error x =>
        rw [hv] at ih
        obtain ⟨a1, a2, a3, a4, a5⟩ := ih
        exact ⟨a1, a2.trans n1.abs, n1.step.trans a3, a4.trans n1.next, a5.trans n1.attr⟩
      | ok s =>
        rw [hv] at ih
        obtain ⟨k', a1, a2⟩ := ih
        exact ⟨k', a1, ⟨n1.step.trans a2.step, a2.abs.trans n1.abs, a2.next.trans n1.next, a2.attr.trans n1.attr, ⟨n1.step.mono.trans a2.new.1, a2.new.2⟩, a2.notAttr, a2.val,
          fun j hj => (a2.old j (lt_of_lt_of_le hj n1.step.mono)).trans (n1.old j hj)⟩⟩

theorem causetInit_spec (h : o.Sep) {i : ℕ} (hi : i < o.nextSet) : Returns o (o.causetInit it i) (o.abs.causetInit it (o.val i)) :=
  initLoop_spec (o.next + 1) o h i hi

end Objs
end Causets
