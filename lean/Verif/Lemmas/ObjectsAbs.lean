import Verif.Lemmas.Objects

/-! # Set objects: the functions with references refine the functions on values -/

namespace Causets

open Function (update)

namespace Objs

variable {it : Iter} {o : Objs}

/-- the value of an attribute, if it exists -/
def opt (o : Objs) (e : EId) (f : Field) : Option (Finset EId) := (o.attr e f).map o.val

theorem get_eq (e : EId) (f : Field) : o.get e f = (o.opt e f).getD ∅ := by
  unfold get opt
  cases o.attr e f <;> rfl

theorem opt_mutate (h : o.Sep) (e : EId) (f : Field) (g : Finset EId → Finset EId) (e' : EId) (f' : Field) :
    (o.mutate e f g).opt e' f' = if e' = e ∧ f' = f then (o.opt e f).map g else o.opt e' f' := by
  unfold opt
  rw [attr_mutate]
  unfold mutate
  cases hi : o.attr e f with
  | none =>
    dsimp only
    split
    · rename_i hh; rw [hh.1, hh.2, hi]; rfl
    · rfl
  | some i =>
    show Option.map (update o.val i (g (o.val i))) (o.attr e' f') = _
    split
    · rename_i hh; rw [hh.1, hh.2, hi]; simp
    · rename_i hh
      cases hj : o.attr e' f' with
      | none => rfl
      | some j =>
        have hne : j ≠ i := fun hji => hh (h.inj _ _ _ _ _ (hji ▸ hj) hi)
        simp [hne]

theorem opt_assign (h : o.Sep) (e : EId) (f : Field) (s : Finset EId) (e' : EId) (f' : Field) :
    (o.assign e f s).opt e' f' = if e' = e ∧ f' = f then some s else o.opt e' f' := by
  unfold opt
  rw [attr_assign]
  show Option.map (update o.val o.nextSet s) _ = _
  split
  · simp
  · cases hj : o.attr e' f' with
    | none => rfl
    | some j =>
      have hne : j ≠ o.nextSet := ne_of_lt (h.lt _ _ _ hj)
      simp [hne]

theorem opt_delete (e : EId) (f : Field) (e' : EId) (f' : Field) :
    (o.delete e f).opt e' f' = if e' = e ∧ f' = f then none else o.opt e' f' := by
  unfold opt
  rw [attr_delete]
  show Option.map o.val _ = _
  split <;> rfl

theorem opt_newObject (l : Option Label) (e' : EId) (f' : Field) : (o.newObject l).2.opt e' f' = if e' = o.next then none else o.opt e' f' := by
  unfold opt
  rw [attr_newObject]
  show Option.map o.val _ = _
  split <;> rfl

theorem opt_newSet (h : o.Sep) (s : Finset EId) : (o.newSet s).2.opt = o.opt := by
  funext e f
  show Option.map (update o.val o.nextSet s) (o.attr e f) = Option.map o.val (o.attr e f)
  cases hj : o.attr e f with
  | none => rfl
  | some j =>
    have hne : j ≠ o.nextSet := ne_of_lt (h.lt _ _ _ hj)
    simp [hne]

/-- a change of an object that is no attribute -/
theorem opt_change {i : ℕ} (hn : ¬ o.IsAttr i) (g : Finset EId → Finset EId) : (o.change i g).opt = o.opt := by
  funext e f
  show Option.map (update o.val i (g (o.val i))) (o.attr e f) = Option.map o.val (o.attr e f)
  cases hj : o.attr e f with
  | none => rfl
  | some j =>
    have hne : j ≠ i := fun hji => hn ⟨e, f, hji ▸ hj⟩
    simp [hne]

theorem abs_eq : o.abs = ⟨o.next, o.label, fun e => (o.opt e .prec).getD ∅, fun e => (o.opt e .succ).getD ∅, fun e => o.opt e .lprec, fun e => o.opt e .lsucc⟩ := by
  unfold abs
  simp only [get_eq]
  rfl

theorem abs_prec (e : EId) : o.abs.prec e = o.get e .prec := rfl
theorem abs_succ (e : EId) : o.abs.succ e = o.get e .succ := rfl
theorem abs_lprec (e : EId) : o.abs.lprec e = o.opt e .lprec := rfl
theorem abs_lsucc (e : EId) : o.abs.lsucc e = o.opt e .lsucc := rfl

theorem abs_congr {a b : Objs} (h1 : a.next = b.next) (h2 : a.label = b.label) (h3 : a.opt = b.opt) : a.abs = b.abs := by
  rw [abs_eq, abs_eq, h1, h2, h3]

theorem next_mutate (e : EId) (f : Field) (g : Finset EId → Finset EId) : (o.mutate e f g).next = o.next := by unfold mutate; split <;> rfl
theorem label_mutate (e : EId) (f : Field) (g : Finset EId → Finset EId) : (o.mutate e f g).label = o.label := by unfold mutate; split <;> rfl
theorem nextSet_mutate (e : EId) (f : Field) (g : Finset EId → Finset EId) : (o.mutate e f g).nextSet = o.nextSet := by unfold mutate; split <;> rfl

theorem heap_ext {a b : Heap} (h1 : a.next = b.next) (h2 : a.label = b.label) (h3 : ∀ e, a.prec e = b.prec e) (h4 : ∀ e, a.succ e = b.succ e)
    (h5 : ∀ e, a.lprec e = b.lprec e) (h6 : ∀ e, a.lsucc e = b.lsucc e) : a = b := by
  cases a; cases b
  simp only [Heap.mk.injEq]
  exact ⟨h1, h2, funext h3, funext h4, funext h5, funext h6⟩

theorem abs_mutate_prec (h : o.Sep) (e : EId) (he : (o.attr e .prec).isSome) (g : Finset EId → Finset EId) :
    (o.mutate e .prec g).abs = { o.abs with prec := update o.abs.prec e (g (o.abs.prec e)) } := by
  refine heap_ext (next_mutate _ _ _) (label_mutate _ _ _) (fun x => ?_) (fun x => ?_) (fun x => ?_) (fun x => ?_)
  · show (o.mutate e .prec g).get x .prec = update o.abs.prec e (g (o.abs.prec e)) x
    rw [get_eq, opt_mutate h]
    by_cases hx : x = e
    · subst hx
      have := he
      simp only [and_self, if_true, Function.update_self, abs_prec, get_eq]
      unfold opt
      cases hh : o.attr x .prec with
      | none => rw [hh] at this; cases this
      | some i => rfl
    · simp only [hx, false_and, if_false, Function.update_of_ne hx, abs_prec, get_eq, ne_eq, not_false_eq_true]
  · show (o.mutate e .prec g).get x .succ = o.get x .succ
    rw [get_eq, opt_mutate h, get_eq]; simp
  · show (o.mutate e .prec g).opt x .lprec = o.opt x .lprec
    rw [opt_mutate h]; simp
  · show (o.mutate e .prec g).opt x .lsucc = o.opt x .lsucc
    rw [opt_mutate h]; simp

theorem abs_mutate_succ (h : o.Sep) (e : EId) (he : (o.attr e .succ).isSome) (g : Finset EId → Finset EId) :
    (o.mutate e .succ g).abs = { o.abs with succ := update o.abs.succ e (g (o.abs.succ e)) } := by
  refine heap_ext (next_mutate _ _ _) (label_mutate _ _ _) (fun x => ?_) (fun x => ?_) (fun x => ?_) (fun x => ?_)
  · show (o.mutate e .succ g).get x .prec = o.get x .prec
    rw [get_eq, opt_mutate h, get_eq]; simp
  · show (o.mutate e .succ g).get x .succ = update o.abs.succ e (g (o.abs.succ e)) x
    rw [get_eq, opt_mutate h]
    by_cases hx : x = e
    · subst hx
      have := he
      simp only [and_self, if_true, Function.update_self, abs_succ, get_eq]
      unfold opt
      cases hh : o.attr x .succ with
      | none => rw [hh] at this; cases this
      | some i => rfl
    · simp only [hx, false_and, if_false, Function.update_of_ne hx, abs_succ, get_eq, ne_eq, not_false_eq_true]
  · show (o.mutate e .succ g).opt x .lprec = o.opt x .lprec
    rw [opt_mutate h]; simp
  · show (o.mutate e .succ g).opt x .lsucc = o.opt x .lsucc
    rw [opt_mutate h]; simp

theorem abs_mutate_lprec (h : o.Sep) (e : EId) (g : Finset EId → Finset EId) :
    (o.mutate e .lprec g).abs = { o.abs with lprec := update o.abs.lprec e ((o.abs.lprec e).map g) } := by
  refine heap_ext (next_mutate _ _ _) (label_mutate _ _ _) (fun x => ?_) (fun x => ?_) (fun x => ?_) (fun x => ?_)
  · show (o.mutate e .lprec g).get x .prec = o.get x .prec
    rw [get_eq, opt_mutate h, get_eq]; simp
  · show (o.mutate e .lprec g).get x .succ = o.get x .succ
    rw [get_eq, opt_mutate h, get_eq]; simp
  · show (o.mutate e .lprec g).opt x .lprec = update o.abs.lprec e ((o.abs.lprec e).map g) x
    rw [opt_mutate h]
    by_cases hx : x = e
    · subst hx; simp [abs_lprec]
    · simp [hx, abs_lprec]
  · show (o.mutate e .lprec g).opt x .lsucc = o.opt x .lsucc
    rw [opt_mutate h]; simp

theorem abs_mutate_lsucc (h : o.Sep) (e : EId) (g : Finset EId → Finset EId) :
    (o.mutate e .lsucc g).abs = { o.abs with lsucc := update o.abs.lsucc e ((o.abs.lsucc e).map g) } := by
  refine heap_ext (next_mutate _ _ _) (label_mutate _ _ _) (fun x => ?_) (fun x => ?_) (fun x => ?_) (fun x => ?_)
  · show (o.mutate e .lsucc g).get x .prec = o.get x .prec
    rw [get_eq, opt_mutate h, get_eq]; simp
  · show (o.mutate e .lsucc g).get x .succ = o.get x .succ
    rw [get_eq, opt_mutate h, get_eq]; simp
  · show (o.mutate e .lsucc g).opt x .lprec = o.opt x .lprec
    rw [opt_mutate h]; simp
  · show (o.mutate e .lsucc g).opt x .lsucc = update o.abs.lsucc e ((o.abs.lsucc e).map g) x
    rw [opt_mutate h]
    by_cases hx : x = e
    · subst hx; simp [abs_lsucc]
    · simp [hx, abs_lsucc]

theorem abs_assign_prec (h : o.Sep) (e : EId) (s : Finset EId) : (o.assign e .prec s).abs = { o.abs with prec := update o.abs.prec e s } := by
  refine heap_ext rfl rfl (fun x => ?_) (fun x => ?_) (fun x => ?_) (fun x => ?_)
  · show (o.assign e .prec s).get x .prec = update o.abs.prec e s x
    rw [get_eq, opt_assign h]
    by_cases hx : x = e
    · subst hx; simp
    · simp [hx, abs_prec, get_eq]
  · show (o.assign e .prec s).get x .succ = o.get x .succ
    rw [get_eq, opt_assign h, get_eq]; simp
  · show (o.assign e .prec s).opt x .lprec = o.opt x .lprec
    rw [opt_assign h]; simp
  · show (o.assign e .prec s).opt x .lsucc = o.opt x .lsucc
    rw [opt_assign h]; simp

theorem abs_assign_succ (h : o.Sep) (e : EId) (s : Finset EId) : (o.assign e .succ s).abs = { o.abs with succ := update o.abs.succ e s } := by
  refine heap_ext rfl rfl (fun x => ?_) (fun x => ?_) (fun x => ?_) (fun x => ?_)
  · show (o.assign e .succ s).get x .prec = o.get x .prec
    rw [get_eq, opt_assign h, get_eq]; simp
  · show (o.assign e .succ s).get x .succ = update o.abs.succ e s x
    rw [get_eq, opt_assign h]
    by_cases hx : x = e
    · subst hx; simp
    · simp [hx, abs_succ, get_eq]
  · show (o.assign e .succ s).opt x .lprec = o.opt x .lprec
    rw [opt_assign h]; simp
  · show (o.assign e .succ s).opt x .lsucc = o.opt x .lsucc
    rw [opt_assign h]; simp

theorem abs_assign_lprec (h : o.Sep) (e : EId) (s : Finset EId) : (o.assign e .lprec s).abs = { o.abs with lprec := update o.abs.lprec e (some s) } := by
  refine heap_ext rfl rfl (fun x => ?_) (fun x => ?_) (fun x => ?_) (fun x => ?_)
  · show (o.assign e .lprec s).get x .prec = o.get x .prec
    rw [get_eq, opt_assign h, get_eq]; simp
  · show (o.assign e .lprec s).get x .succ = o.get x .succ
    rw [get_eq, opt_assign h, get_eq]; simp
  · show (o.assign e .lprec s).opt x .lprec = update o.abs.lprec e (some s) x
    rw [opt_assign h]
    by_cases hx : x = e
    · subst hx; simp
    · simp [hx, abs_lprec]
  · show (o.assign e .lprec s).opt x .lsucc = o.opt x .lsucc
    rw [opt_assign h]; simp

theorem abs_assign_lsucc (h : o.Sep) (e : EId) (s : Finset EId) : (o.assign e .lsucc s).abs = { o.abs with lsucc := update o.abs.lsucc e (some s) } := by
  refine heap_ext rfl rfl (fun x => ?_) (fun x => ?_) (fun x => ?_) (fun x => ?_)
  · show (o.assign e .lsucc s).get x .prec = o.get x .prec
    rw [get_eq, opt_assign h, get_eq]; simp
  · show (o.assign e .lsucc s).get x .succ = o.get x .succ
    rw [get_eq, opt_assign h, get_eq]; simp
  · show (o.assign e .lsucc s).opt x .lprec = o.opt x .lprec
    rw [opt_assign h]; simp
  · show (o.assign e .lsucc s).opt x .lsucc = update o.abs.lsucc e (some s) x
    rw [opt_assign h]
    by_cases hx : x = e
    · subst hx; simp
    · simp [hx, abs_lsucc]

theorem abs_delete_lprec (e : EId) : (o.delete e .lprec).abs = { o.abs with lprec := update o.abs.lprec e none } := by
  refine heap_ext rfl rfl (fun x => ?_) (fun x => ?_) (fun x => ?_) (fun x => ?_)
  · show (o.delete e .lprec).get x .prec = o.get x .prec
    rw [get_eq, opt_delete, get_eq]; simp
  · show (o.delete e .lprec).get x .succ = o.get x .succ
    rw [get_eq, opt_delete, get_eq]; simp
  · show (o.delete e .lprec).opt x .lprec = update o.abs.lprec e none x
    rw [opt_delete]
    by_cases hx : x = e
    · subst hx; simp
    · simp [hx, abs_lprec]
  · show (o.delete e .lprec).opt x .lsucc = o.opt x .lsucc
    rw [opt_delete]; simp

theorem abs_delete_lsucc (e : EId) : (o.delete e .lsucc).abs = { o.abs with lsucc := update o.abs.lsucc e none } := by
  refine heap_ext rfl rfl (fun x => ?_) (fun x => ?_) (fun x => ?_) (fun x => ?_)
  · show (o.delete e .lsucc).get x .prec = o.get x .prec
    rw [get_eq, opt_delete, get_eq]; simp
  · show (o.delete e .lsucc).get x .succ = o.get x .succ
    rw [get_eq, opt_delete, get_eq]; simp
  · show (o.delete e .lsucc).opt x .lprec = o.opt x .lprec
    rw [opt_delete]; simp
  · show (o.delete e .lsucc).opt x .lsucc = update o.abs.lsucc e none x
    rw [opt_delete]
    by_cases hx : x = e
    · subst hx; simp
    · simp [hx, abs_lsucc]

theorem abs_newSet (h : o.Sep) (s : Finset EId) : (o.newSet s).2.abs = o.abs := abs_congr rfl rfl (opt_newSet h s)

theorem abs_change {i : ℕ} (hn : ¬ o.IsAttr i) (g : Finset EId → Finset EId) : (o.change i g).abs = o.abs := abs_congr rfl rfl (opt_change hn g)

theorem abs_build {k : ℕ} {o' : Objs} (hn : ¬ o.IsAttr k) (hb : Build k o o') : o'.abs = o.abs := by
  refine abs_congr hb.next hb.label (funext fun e => funext fun f => ?_)
  unfold opt
  rw [hb.attr]
  cases hj : o.attr e f with
  | none => rfl
  | some j => exact congrArg some (hb.val j (fun hji => hn ⟨e, f, hji ▸ hj⟩))

/-! ## Events -/

theorem hasBeenLinked_abs (e : EId) : o.abs.hasBeenLinked e = o.hasBeenLinked e := by
  unfold Heap.hasBeenLinked hasBeenLinked
  rw [abs_lprec, abs_lsucc]
  unfold opt
  cases o.attr e .lprec <;> cases o.attr e .lsucc <;> rfl

theorem isLink_abs (a b : EId) : o.abs.isLink a b = o.isLink a b := rfl

theorem get_abs_lprec (e : EId) : (o.abs.lprec e).getD ∅ = o.get e .lprec := (get_eq e .lprec).symm
theorem get_abs_lsucc (e : EId) : (o.abs.lsucc e).getD ∅ = o.get e .lsucc := (get_eq e .lsucc).symm

theorem abs_mutate2_lprec (h : o.Sep) (e : EId) (g g' : Finset EId → Finset EId) :
    ((o.mutate e .lprec g).mutate e .lprec g').abs = { o.abs with lprec := update o.abs.lprec e ((o.abs.lprec e).map (fun s => g' (g s))) } := by
  rw [abs_mutate_lprec (step_mutate h _ _ _).sep, abs_mutate_lprec h]
  simp [Function.comp_def]

theorem abs_mutate2_lsucc (h : o.Sep) (e : EId) (g g' : Finset EId → Finset EId) :
    ((o.mutate e .lsucc g).mutate e .lsucc g').abs = { o.abs with lsucc := update o.abs.lsucc e ((o.abs.lsucc e).map (fun s => g' (g s))) } := by
  rw [abs_mutate_lsucc (step_mutate h _ _ _).sep, abs_mutate_lsucc h]
  simp [Function.comp_def]

theorem abs_addToPast (h : o.Sep) {a : EId} (ha : (o.attr a .prec).isSome) (b : EId) : (o.addToPast a b).abs = (o.abs.addToPast a b).2 := by
  unfold addToPast Heap.addToPast
  rw [abs_prec, hasBeenLinked_abs, isLink_abs]
  by_cases hb : b ∈ o.get a .prec
  · rw [if_pos hb, if_pos hb]
  · rw [if_neg hb, if_neg hb]
    dsimp only
    by_cases hc : (o.hasBeenLinked a && o.isLink b a) = true
    · rw [if_pos hc, if_pos hc]
      have hs := step_mutate2 h a .lprec (fun s => s \ o.get b .prec) (fun s => insert b s)
      rw [abs_mutate_prec hs.sep a (by rw [attr_mutate, attr_mutate]; exact ha), abs_mutate2_lprec h]
      rfl
    · rw [if_neg hc, if_neg hc, abs_mutate_prec h a ha]

theorem abs_addToFuture (h : o.Sep) {a : EId} (ha : (o.attr a .succ).isSome) (b : EId) : (o.addToFuture a b).abs = (o.abs.addToFuture a b).2 := by
  unfold addToFuture Heap.addToFuture
  rw [abs_succ, hasBeenLinked_abs, isLink_abs]
  by_cases hb : b ∈ o.get a .succ
  · rw [if_pos hb, if_pos hb]
  · rw [if_neg hb, if_neg hb]
    dsimp only
    by_cases hc : (o.hasBeenLinked a && o.isLink a b) = true
    · rw [if_pos hc, if_pos hc]
      have hs := step_mutate2 h a .lsucc (fun s => s \ o.get b .succ) (fun s => insert b s)
      rw [abs_mutate_succ hs.sep a (by rw [attr_mutate, attr_mutate]; exact ha), abs_mutate2_lsucc h]
      rfl
    · rw [if_neg hc, if_neg hc, abs_mutate_succ h a ha]

theorem isSome_of_mem {e x : EId} {f : Field} (h : x ∈ o.get e f) : (o.attr e f).isSome := by
  unfold get at h
  cases hh : o.attr e f with
  | none => rw [hh] at h; exact absurd h (Finset.notMem_empty _)
  | some i => rfl

theorem abs_discard (h : o.Sep) (a b : EId) : (o.discard a b).abs = (o.abs.discard a b).2 := by
  unfold discard Heap.discard
  rw [abs_prec, abs_succ, hasBeenLinked_abs, get_abs_lprec, get_abs_lsucc]
  by_cases hb : b ∈ o.get a .prec
  · rw [if_pos hb, if_pos hb]
    have ha := isSome_of_mem hb
    dsimp only
    by_cases hc : (o.hasBeenLinked a && decide (b ∈ o.get a .lprec)) = true
    · rw [if_pos hc, if_pos hc]
      have hs := step_mutate2 h a .lprec (fun s => s ∪ (o.get b .prec).filter (fun e => o.isLink e a)) (fun s => s.erase b)
      rw [abs_mutate_prec hs.sep a (by rw [attr_mutate, attr_mutate]; exact ha), abs_mutate2_lprec h]
      rfl
    · rw [if_neg hc, if_neg hc, abs_mutate_prec h a ha]
  · rw [if_neg hb, if_neg hb]
    by_cases hb' : b ∈ o.get a .succ
    · rw [if_pos hb', if_pos hb']
      have ha := isSome_of_mem hb'
      dsimp only
      by_cases hc : (o.hasBeenLinked a && decide (b ∈ o.get a .lsucc)) = true
      · rw [if_pos hc, if_pos hc]
        have hs := step_mutate2 h a .lsucc (fun s => s ∪ (o.get b .succ).filter (fun e => o.isLink a e)) (fun s => s.erase b)
        rw [abs_mutate_succ hs.sep a (by rw [attr_mutate, attr_mutate]; exact ha), abs_mutate2_lsucc h]
        rfl
      · rw [if_neg hc, if_neg hc, abs_mutate_succ h a ha]
    · rw [if_neg hb', if_neg hb']

theorem get_assign_ne (h : o.Sep) (e : EId) (f f' : Field) (hf : f' ≠ f) (s : Finset EId) (x : EId) : (o.assign e f s).get x f' = o.get x f' := by
  rw [get_eq, opt_assign h, get_eq, if_neg (fun hh => hf hh.2)]

theorem get_assign_ne' (h : o.Sep) (e : EId) (f f' : Field) (s : Finset EId) {x : EId} (hx : x ≠ e) : (o.assign e f s).get x f' = o.get x f' := by
  rw [get_eq, opt_assign h, get_eq, if_neg (fun hh => hx hh.1)]

theorem abs_link (h : o.Sep) (e : EId) : (o.link e).abs = o.abs.link e := by
  unfold link Heap.link
  dsimp only
  generalize hS : (o.get e .prec).filter (fun x => o.isLink x e) = S
  have hs := step_assign h e .lprec S
  rw [abs_assign_lsucc hs.sep, abs_assign_lprec h]
  simp only [isLink, get_assign_ne h e .lprec .prec (by decide) S, get_assign_ne h e .lprec .succ (by decide) S]
  rw [← hS]
  rfl

theorem abs_unlink (e : EId) : ((o.unlink e).1, (o.unlink e).2.abs) = o.abs.unlink e := by
  unfold unlink Heap.unlink
  rw [abs_lprec]
  unfold opt
  cases hp : o.attr e .lprec with
  | none => rfl
  | some i =>
    simp only [Option.isSome_some, if_true, Option.map_some]
    have h2 : (o.delete e .lprec).attr e .lsucc = o.attr e .lsucc := by rw [attr_delete]; simp
    have h3 : o.abs.lsucc e = (o.attr e .lsucc).map o.val := rfl
    rw [h2, h3]
    cases hs : o.attr e .lsucc with
    | none =>
      simp only [Option.isSome_none, Option.map_none]
      show ((Except.error Err.attributeError : Except Err Unit), (o.delete e .lprec).abs) = _
      rw [abs_delete_lprec]
    | some j =>
      simp only [Option.isSome_some, if_true, Option.map_some]
      rw [abs_delete_lsucc, abs_delete_lprec]

theorem coneVal_abs (e : EId) : o.abs.cone e = o.coneVal e := rfl


/-! ## Loops -/

/-- the loop over a list, without the check of the size -/
def runList (body : EId → Objs → Except Err Unit × Objs) : List EId → Objs → Except Err Unit × Objs
  | [], o => (.ok (), o)
  | e :: es, o => match body e o with
    | (.error x, o1) => (.error x, o1)
    | (.ok _, o1) => runList body es o1

theorem forSet_eq {P : Objs → Prop} {body : EId → Objs → Except Err Unit × Objs} {i n : ℕ} (hn : ∀ g, P g → (g.val i).card = n) :
    ∀ (l : List EId), (∀ g, ∀ x ∈ l, P g → P (body x g).2) → ∀ g, P g → forSet body i n l g = runList body l g
  | [], _, g, hg => by unfold forSet runList; rw [if_pos (hn g hg)]
  | x :: l, hb, g, hg => by
    unfold forSet runList
    rw [if_pos (hn g hg)]
    have h1 := hb g x List.mem_cons_self hg
    rcases hx : body x g with ⟨r, o1⟩
    rw [hx] at h1
    cases r with
    | error y => rfl
    | ok y => exact forSet_eq hn l (fun g y hy => hb g y (List.mem_cons_of_mem _ hy)) o1 h1

theorem runList_ok {F : Objs → EId → Objs} : ∀ (l : List EId) (g : Objs), runList (fun e g => (.ok (), F g e)) l g = (.ok (), l.foldl F g)
  | [], _ => rfl
  | x :: l, g => by unfold runList; exact runList_ok l (F g x)

theorem foldl_rel {R : Objs → Heap → Prop} {F : Objs → EId → Objs} {H : Heap → EId → Heap} :
    ∀ (l : List EId), (∀ g k, ∀ x ∈ l, R g k → R (F g x) (H k x)) → ∀ g k, R g k → R (l.foldl F g) (l.foldl H k)
  | [], _, _, _, h => h
  | x :: l, hF, g, k, h => foldl_rel l (fun g k y hy => hF g k y (List.mem_cons_of_mem _ hy)) _ _ (hF g k x List.mem_cons_self h)

theorem foldl_inv {α : Type} {P : α → Prop} {F : α → EId → α} : ∀ (l : List EId), (∀ g, ∀ x ∈ l, P g → P (F g x)) → ∀ g, P g → P (l.foldl F g)
  | [], _, _, h => h
  | x :: l, hF, g, h => foldl_inv l (fun g y hy => hF g y (List.mem_cons_of_mem _ hy)) _ (hF g x List.mem_cons_self h)

theorem abs_disjoin (h : o.Sep) (e : EId) : ((o.disjoin it e).1, (o.disjoin it e).2.abs) = o.abs.disjoin it e := by
  have hu := abs_unlink (o := o) e
  have hs := step_unlink h e
  unfold disjoin Heap.disjoin
  rw [← hu]
  rcases hx : o.unlink e with ⟨r, o1⟩
  rw [hx] at hs
  cases r with
  | error y => rfl
  | ok y =>
    dsimp only at hs ⊢
    have key : ∀ (l : List EId) (g : Objs), g.Sep → (l.foldl (fun g x => g.discard x e) g).Sep ∧
        (l.foldl (fun g x => g.discard x e) g).abs = l.foldl (fun g x => (g.discard x e).2) g.abs := fun l g hg =>
      foldl_rel (R := fun g k => g.Sep ∧ g.abs = k) l (fun g k x _ hh => ⟨(step_discard hh.1 x e).sep, by rw [abs_discard hh.1, hh.2]⟩) g g.abs ⟨hg, rfl⟩
    rw [coneVal_abs]
    have h2 := key (it.ord [e, 0] (o1.coneVal e)) o1 hs.sep
    rw [← h2.2]
    generalize (it.ord [e, 0] (o1.coneVal e)).foldl (fun g x => g.discard x e) o1 = o2 at h2 ⊢
    have h3 := (step_assign h2.1 e .prec ∅).sep
    rw [← abs_assign_prec h2.1 e ∅, coneVal_abs]
    generalize o2.assign e .prec ∅ = o3 at h3 ⊢
    have h4 := key (it.ord [e, 1] (o3.coneVal e)) o3 h3
    rw [← h4.2, abs_assign_succ h4.1 e ∅]

end Objs
end Causets
