import Verif.Lemmas.ObjectsLinks

/-! # Set objects: which calls let `_prec` and `_succ` of an event refer to another object -/

namespace Causets

open Function (update)

namespace Objs

/-- `_prec` and `_succ` of the events with `P` refer to the same objects as before -/
def Hold (P : EId → Prop) (o o' : Objs) : Prop := ∀ e, P e → o'.attr e .prec = o.attr e .prec ∧ o'.attr e .succ = o.attr e .succ

variable {it : Iter} {o : Objs} {P : EId → Prop}

theorem Hold.refl (o : Objs) : Hold P o o := fun _ _ => ⟨rfl, rfl⟩
theorem Hold.trans {a b c : Objs} (h1 : Hold P a b) (h2 : Hold P b c) : Hold P a c := fun e he => ⟨(h2 e he).1.trans (h1 e he).1, (h2 e he).2.trans (h1 e he).2⟩
theorem Hold.of_attr {a b : Objs} (h : b.attr = a.attr) : Hold P a b := fun e _ => by rw [h]; exact ⟨rfl, rfl⟩
theorem Hold.mono {Q : EId → Prop} {a b : Objs} (h : Hold P a b) (hq : ∀ e, Q e → P e) : Hold Q a b := fun e he => h e (hq e he)

theorem hold_assign (e : EId) (f : Field) (s : Finset EId) (hf : (f = .lprec ∨ f = .lsucc) ∨ ¬ P e) : Hold P o (o.assign e f s) := fun x hx => by
  have hne : ∀ f', f' = .prec ∨ f' = .succ → (o.assign e f s).attr x f' = o.attr x f' := fun f' hf' => by
    rw [attr_assign, if_neg]
    rintro ⟨rfl, rfl⟩
    rcases hf with hf | hf
    · rcases hf' with rfl | rfl <;> rcases hf with hf | hf <;> cases hf
    · exact hf hx
  exact ⟨hne _ (Or.inl rfl), hne _ (Or.inr rfl)⟩

theorem hold_delete (e : EId) (f : Field) (hf : f = .lprec ∨ f = .lsucc) : Hold P o (o.delete e f) := fun x _ => by
  have hne : ∀ f', f' = .prec ∨ f' = .succ → (o.delete e f).attr x f' = o.attr x f' := fun f' hf' => by
    rw [attr_delete, if_neg]
    rintro ⟨rfl, rfl⟩
    rcases hf' with rfl | rfl <;> rcases hf with hf | hf <;> cases hf
  exact ⟨hne _ (Or.inl rfl), hne _ (Or.inr rfl)⟩

theorem hold_newObject (l : Option Label) (hn : ¬ P o.next) : Hold P o (o.newObject l).2 := fun x hx => by
  have hne : x ≠ o.next := fun h => hn (h ▸ hx)
  rw [attr_newObject, attr_newObject, if_neg hne, if_neg hne]
  exact ⟨rfl, rfl⟩

theorem hold_unlink (e : EId) : Hold P o (o.unlink e).2 := by
  unfold unlink
  split
  · dsimp only
    split
    · exact (hold_delete e .lprec (Or.inl rfl)).trans (hold_delete e .lsucc (Or.inr rfl))
    · exact hold_delete e .lprec (Or.inl rfl)
  · exact Hold.refl o

theorem hold_link (e : EId) : Hold P o (o.link e) :=
  (hold_assign e .lprec _ (Or.inl (Or.inl rfl))).trans (hold_assign e .lsucc _ (Or.inl (Or.inr rfl)))

theorem attr_discard (a b : EId) : (o.discard a b).attr = o.attr := by
  unfold discard
  split
  · dsimp only; rw [attr_mutate]; split
    · rw [attr_mutate, attr_mutate]
    · rfl
  · split
    · dsimp only; rw [attr_mutate]; split
      · rw [attr_mutate, attr_mutate]
      · rfl
    · rfl

theorem hold_foldl {f : Objs → EId → Objs} (hf : ∀ g x, Hold P g (f g x)) : ∀ (l : List EId) (g : Objs), Hold P g (l.foldl f g)
  | [], g => Hold.refl g
  | x :: l, g => (hf g x).trans (hold_foldl hf l (f g x))

theorem hold_forSet {body : EId → Objs → Except Err Unit × Objs} (hb : ∀ g x, Hold P g (body x g).2) (i n : ℕ) :
    ∀ (l : List EId) (g : Objs), Hold P g (forSet body i n l g).2
  | [], g => by unfold forSet; split <;> exact Hold.refl g
  | x :: l, g => by
    unfold forSet
    split
    · have hs := hb g x
      rcases hx : body x g with ⟨r, o1⟩
      rw [hx] at hs
      cases r with
      | error y => exact hs
      | ok y => exact hs.trans (hold_forSet hb i n l o1)
    · exact Hold.refl g

theorem hold_loop {body : EId → Objs → Except Err Unit × Objs} (hb : ∀ g x, Hold P g (body x g).2) (ctx : List ℕ) (i : ℕ) :
    Hold P o (o.loop it ctx body i).2 := hold_forSet hb _ _ _ _

theorem hold_loopAttr {body : EId → Objs → Except Err Unit × Objs} (hb : ∀ g x, Hold P g (body x g).2) (ctx : List ℕ) (e : EId) (f : Field) :
    Hold P o (o.loopAttr it ctx body e f).2 := by
  unfold loopAttr
  split
  · exact Hold.refl o
  · exact hold_loop hb _ _

theorem hold_disjoin (e : EId) (he : ¬ P e) : Hold P o (o.disjoin it e).2 := by
  have h1 := hold_unlink (P := P) (o := o) e
  unfold disjoin
  rcases hx : o.unlink e with ⟨r, o1⟩
  rw [hx] at h1
  cases r with
  | error y => exact h1
  | ok y =>
    dsimp only at h1 ⊢
    have key : ∀ (l : List EId) (g : Objs), Hold P g (l.foldl (fun g x => g.discard x e) g) := fun l g => hold_foldl (fun g x => Hold.of_attr (attr_discard x e)) l g
    exact (((h1.trans (key _ _)).trans (hold_assign e .prec ∅ (Or.inr he))).trans (key _ _)).trans (hold_assign e .succ ∅ (Or.inr he))

theorem hold_gather (self : EId) (f : Field) (a : Option ℕ) : Hold P o (o.gather it self f a).2 := by
  cases a with
  | none => exact Hold.refl o
  | some i => exact hold_loop (fun g x => Hold.of_attr (attr_mutate _ _ _)) _ _

theorem hold_newEvent (l : Option Label) (past future : Option ℕ) (hn : ¬ P o.next) : Hold P o (o.newEvent it l past future).2 := by
  have hn' : ¬ P (o.newObject l).1 := hn
  have h2 := (hold_newObject l hn).trans (hold_assign (o.newObject l).1 .prec ∅ (Or.inr hn'))
  have h3 := h2.trans (hold_gather (it := it) (o.newObject l).1 .prec past)
  unfold newEvent
  dsimp only
  split
  · rename_i hx; rw [hx] at h3; exact h3
  · rename_i o1 hx
    rw [hx] at h3
    have h5 := (h3.trans (hold_assign (o.newObject l).1 .succ ∅ (Or.inr hn'))).trans (hold_gather (it := it) (o.newObject l).1 .succ future)
    split
    · rename_i hy; rw [hy] at h5; exact h5
    · rename_i o2 hy
      rw [hy] at h5
      have h6 := h5.trans (hold_loopAttr (it := it) (body := fun e g => (.ok (), g.addToFuture e (o.newObject l).1))
        (fun g x => Hold.of_attr (attr_addToFuture _ _)) [(o.newObject l).1, 0] (o.newObject l).1 .prec)
      split
      · rename_i hz; rw [hz] at h6; exact h6
      · rename_i o3 hz
        rw [hz] at h6
        have h7 := h6.trans (hold_loopAttr (it := it) (body := fun e g => (.ok (), g.addToPast e (o.newObject l).1))
          (fun g x => Hold.of_attr (attr_addToPast _ _)) [(o.newObject l).1, 1] (o.newObject l).1 .succ)
        split
        · rename_i hw; rw [hw] at h7; exact h7
        · rename_i hw; rw [hw] at h7; exact h7

theorem hold_copy (e : EId) (hn : ¬ P o.next) : Hold P o (o.copy e).2 := by
  have hn' : ¬ P (o.newObject (o.label e)).1 := hn
  have key : ∀ (g : Objs) f s, Hold P g (g.assign (o.newObject (o.label e)).1 f s) := fun g f s => hold_assign _ f s (Or.inr hn')
  unfold copy
  dsimp only
  split
  · exact ((((((hold_newObject _ hn).trans (key _ _ _)).trans (key _ _ _)).trans (key _ _ _)).trans (key _ _ _)).trans (key _ _ _)).trans (key _ _ _)
  · exact ((((hold_newObject _ hn).trans (key _ _ _)).trans (key _ _ _)).trans (key _ _ _)).trans (key _ _ _)

theorem hold_linkPast (e : EId) : Hold P o (o.linkPast e).2 := by
  unfold linkPast
  split
  · exact Hold.refl o
  · exact hold_link e

theorem hold_linkFuture (e : EId) : Hold P o (o.linkFuture e).2 := by
  unfold linkFuture
  split
  · exact Hold.refl o
  · exact hold_link e

theorem attr_gatherOf (ctx : List ℕ) (cone coneP : Objs → EId → Finset EId) (i : ℕ) (p q : Bool) : (o.gatherOf it ctx cone coneP i p q).2.attr = o.attr :=
  (build_gatherOf ctx cone coneP i p q).attr

theorem attr_initLoop : ∀ (fuel i : ℕ) (o : Objs), (initLoop it fuel i o).2.attr = o.attr
  | 0, _, _ => rfl
  | fuel + 1, i, o => by
    have h1 : (o.coneOf it i true false).2.attr = o.attr := attr_gatherOf _ _ _ _ _ _
    unfold initLoop
    split
    · rename_i hx; rw [hx] at h1; exact h1
    · rename_i hx
      rw [hx] at h1
      split
      · exact h1
      · exact (attr_initLoop fuel _ _).trans h1

theorem hold_mergeLoop (i j : ℕ) : Hold P o (o.mergeLoop it i j).2 :=
  hold_loop (fun _ p => hold_loop (fun _ f => Hold.of_attr ((attr_addToPast f p).trans (attr_addToFuture p f))) _ _) _ _

theorem hold_merge (i j : ℕ) (d : Bool) : Hold P o (o.merge it i j d).2 := by
  have h1 : Hold P o (if d then ((.ok (), o) : Except Err Unit × Objs) else o.mergeLoop it i j).2 := by
    split
    · exact Hold.refl o
    · exact hold_mergeLoop i j
  unfold merge
  split
  · rename_i hx; rw [hx] at h1; exact h1
  · rename_i o1 hx
    rw [hx] at h1
    exact h1.trans (Hold.of_attr (attr_initLoop _ _ _))

theorem hold_unlinkLoop (ctx : List ℕ) (c : ℕ) : Hold P o (o.loop it ctx (fun e g => g.unlink e) c).2 := hold_loop (fun _ e => hold_unlink e) _ _

theorem hold_causetAdd (c i : ℕ) (u : Bool) : Hold P o (o.causetAdd it c i u).2 := by
  have h1 : Hold P o (o.change c (fun s => s ∪ o.val i)) := Hold.of_attr rfl
  unfold causetAdd
  dsimp only
  split
  · exact h1.trans (hold_unlinkLoop _ _)
  · exact h1

theorem hold_causetDiscard (c i : ℕ) (k u : Bool) : Hold P o (o.causetDiscard it c i k u).2 := by
  have h1 : Hold P o (o.differenceUpdate it c i k).2 := by
    unfold differenceUpdate
    split
    · exact hold_loop (fun _ _ => Hold.of_attr rfl) _ _
    · exact Hold.of_attr rfl
  unfold causetDiscard
  split
  · rename_i hx; rw [hx] at h1; exact h1
  · rename_i hx
    rw [hx] at h1
    split
    · exact h1.trans (hold_unlinkLoop _ _)
    · exact h1

theorem hold_causetLink (c : ℕ) : Hold P o (o.causetLink it c).2 := by
  have h1 : Hold P o (o.loop it [286] (fun e g => (.ok (), g.assign e .lsucc ∅)) c).2 := hold_loop (fun _ e => hold_assign e .lsucc ∅ (Or.inl (Or.inr rfl))) _ _
  unfold causetLink
  split
  · rename_i hx; rw [hx] at h1; exact h1
  · rename_i hx
    rw [hx] at h1
    refine h1.trans (hold_loop (fun g b => ?_) _ _)
    exact (hold_assign b .lprec _ (Or.inl (Or.inl rfl))).trans (hold_loopAttr (fun g' a => Hold.of_attr (attr_addLsucc b a)) _ _ _)

theorem hold_causetUnlink (c : ℕ) : Hold P o (o.causetUnlink it c).2 :=
  hold_loop (fun g e => by
    split
    · exact hold_unlink e
    · exact Hold.refl g) _ _

end Objs
end Causets
