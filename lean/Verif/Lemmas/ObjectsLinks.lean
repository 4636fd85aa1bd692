import Verif.Lemmas.ObjectsMerge

/-! # Set objects: `add`, `discard`, `link`, `unlink` of causets -/

namespace Causets

open Function (update)

namespace Objs

variable {it : Iter} {o : Objs}

theorem val_unlink (e : EId) : (o.unlink e).2.val = o.val := by
  unfold unlink
  split
  · dsimp only; split <;> rfl
  · rfl

theorem next_unlink (e : EId) : (o.unlink e).2.next = o.next := by
  unfold unlink
  split
  · dsimp only; split <;> rfl
  · rfl

theorem runList_rel {R : Objs → Heap → Prop} {body : EId → Objs → Except Err Unit × Objs} {H : EId → Heap → Except Err Unit × Heap}
    {F : List EId → Heap → Except Err Unit × Heap} (h0 : ∀ k, F [] k = (.ok (), k))
    (h1 : ∀ e es k, F (e :: es) k = match H e k with
      | (.error x, k1) => (.error x, k1)
      | (.ok _, k1) => F es k1) : ∀ (l : List EId),
    (∀ g k, ∀ x ∈ l, R g k → (body x g).1 = (H x k).1 ∧ R (body x g).2 (H x k).2) → ∀ g k, R g k →
    (runList body l g).1 = (F l k).1 ∧ R (runList body l g).2 (F l k).2
  | [], _, g, k, hR => by rw [h0]; exact ⟨rfl, hR⟩
  | x :: l, hb, g, k, hR => by
    obtain ⟨a1, a2⟩ := hb g k x List.mem_cons_self hR
    rw [h1]
    unfold runList
    rcases hx : body x g with ⟨r, o1⟩
    rcases hy : H x k with ⟨r', k1⟩
    rw [hx, hy] at a1 a2
    dsimp only at a1 a2
    subst a1
    cases r with
    | error y => exact ⟨rfl, a2⟩
    | ok y => exact runList_rel h0 h1 l (fun g k y hy => hb g k y (List.mem_cons_of_mem _ hy)) o1 k1 a2

theorem runList_unlink (l : List EId) (g : Objs) :
    ((runList (fun e g => g.unlink e) l g).1, (runList (fun e g => g.unlink e) l g).2.abs) = unlinkAll l g.abs := by
  have := runList_rel (R := fun g k => g.abs = k) (body := fun e g => g.unlink e) (H := fun e k => k.unlink e) (F := unlinkAll) (fun _ => rfl)
    (fun e es k => by rw [unlinkAll]; rcases k.unlink e with ⟨_ | _, _⟩ <;> rfl) l (fun g k x _ hR => by
      have := abs_unlink (o := g) x
      rw [hR] at this
      rw [← this]
      exact ⟨rfl, rfl⟩) g g.abs rfl
  exact Prod.ext this.1 this.2

theorem loop_unlink (ctx : List ℕ) (c : ℕ) : o.loop it ctx (fun e g => g.unlink e) c = runList (fun e g => g.unlink e) (it.ord ctx (o.val c)) o := by
  show forSet _ _ _ _ _ = _
  exact forSet_eq (P := fun g => g.val = o.val) (fun g hg => by rw [hg]) _ (fun g x _ hg => (val_unlink x).trans hg) o rfl

theorem val_runList_unlink (l : List EId) (g : Objs) : (runList (fun e g => g.unlink e) l g).2.val = g.val := by
  induction l generalizing g with
  | nil => rfl
  | cons x l ih =>
    unfold runList
    have := val_unlink (o := g) x
    rcases hx : g.unlink x with ⟨r, o1⟩
    rw [hx] at this
    cases r with
    | error y => exact this
    | ok y => exact (ih o1).trans this

/-- the outcome of a method of a causet with the set object `c`, against a function on values -/
def AgreesOn (c : ℕ) (r : Except Err Unit × Objs) (v : Finset EId × Except Err Unit × Heap) : Prop :=
  r.2.val c = v.1 ∧ r.1 = v.2.1 ∧ r.2.abs = v.2.2

theorem unlink_tail {o1 : Objs} {c : ℕ} {S : Finset EId} {hp : Heap} (hS : o1.val c = S) (ha : o1.abs = hp) (ctx : List ℕ) (u : Bool) :
    AgreesOn c (if u then o1.loop it ctx (fun e g => g.unlink e) c else (.ok (), o1)) (S, if u then unlinkAll (it.ord ctx S) hp else (.ok (), hp)) := by
  subst hS ha
  cases u with
  | false => exact ⟨rfl, rfl, rfl⟩
  | true =>
    simp only [if_true]
    rw [loop_unlink, ← runList_unlink]
    exact ⟨by rw [val_runList_unlink], rfl, rfl⟩

theorem causetAdd_spec {c : ℕ} (hc : ¬ o.IsAttr c) (i : ℕ) (u : Bool) :
    AgreesOn c (o.causetAdd it c i u) (Causets.causetAdd it (o.val c) (o.val i) u o.abs) :=
  unlink_tail (o1 := o.change c (fun s => s ∪ o.val i)) (Function.update_self ..) (abs_change hc _) [250] u

theorem foldl_erase : ∀ (l : List EId) (S : Finset EId) (x : EId), x ∈ l.foldl (fun acc e => acc.erase e) S ↔ x ∈ S ∧ x ∉ l
  | [], S, x => by simp
  | y :: l, S, x => by
    rw [List.foldl_cons, foldl_erase l, Finset.mem_erase, List.mem_cons, not_or]
    constructor
    · rintro ⟨⟨a, b⟩, c⟩; exact ⟨b, a, c⟩
    · rintro ⟨b, a, c⟩; exact ⟨⟨a, b⟩, c⟩

theorem causetDiscard_spec {c : ℕ} (hc : ¬ o.IsAttr c) (i : ℕ) (k u : Bool) (hk : k = true → i ≠ c) :
    AgreesOn c (o.causetDiscard it c i k u) (Causets.causetDiscard it (o.val c) (o.val i) u o.abs) := by
  unfold causetDiscard differenceUpdate
  cases k with
  | false =>
    exact unlink_tail (o1 := o.change c (fun s => s \ o.val i)) (Function.update_self ..) (abs_change hc _) [262] u
  | true =>
    obtain ⟨o', e1, b1, v1⟩ := build_loop (it := it) (o := o) (k := c) (G := fun _ e s => s.erase e) (G0 := fun e s => s.erase e) [256] (hk rfl) (fun _ _ _ _ => rfl)
    simp only [if_true]
    rw [e1]
    refine unlink_tail (o1 := o') ?_ (abs_build hc b1) [262] u
    rw [v1]
    ext x
    rw [foldl_erase, it.mem, Finset.mem_sdiff]

/-- `C.discard(C)`: after the first event has been removed, the iterator notices the change. -/
theorem causetDiscard_self {c : ℕ} (u : Bool) (hne : (o.val c).Nonempty) :
    ∃ x ∈ o.val c, o.causetDiscard it c c true u = (.error .runtimeError, o.change c (fun s => s.erase x)) := by
  have hl : ∃ x l, it.ord [256] (o.val c) = x :: l := by
    cases hh : it.ord [256] (o.val c) with
    | nil =>
      obtain ⟨y, hy⟩ := hne
      rw [← it.mem [256] (o.val c) y, hh] at hy
      cases hy
    | cons x l => exact ⟨x, l, rfl⟩
  obtain ⟨x, l, hxl⟩ := hl
  have hx : x ∈ o.val c := by rw [← it.mem [256], hxl]; exact List.mem_cons_self
  refine ⟨x, hx, ?_⟩
  have hcard : ((o.change c (fun s => s.erase x)).val c).card ≠ (o.val c).card := by
    show (update o.val c ((o.val c).erase x) c).card ≠ _
    rw [Function.update_self, Finset.card_erase_of_mem hx]
    have := Finset.card_pos.2 hne
    omega
  have hd : o.differenceUpdate it c c true = (.error .runtimeError, o.change c (fun s => s.erase x)) := by
    unfold differenceUpdate
    simp only [if_true]
    unfold loop
    rw [hxl]
    unfold forSet
    simp only [if_true]
    unfold forSet
    cases l with
    | nil => simp only [if_neg hcard]
    | cons y l => simp only [if_neg hcard]
  unfold causetDiscard
  rw [hd]

/-! ## `Causet.link` and `Causet.unlink` -/

theorem abs_addLsucc (h : o.Sep) (b a : EId) : (o.addLsucc b a).2.abs = (match o.abs.lsucc a with
    | none => o.abs
    | some t => { o.abs with lsucc := update o.abs.lsucc a (some (insert b t)) }) ∧
    (o.addLsucc b a).1 = (match o.abs.lsucc a with
    | none => .error .attributeError
    | some _ => .ok ()) := by
  unfold addLsucc
  rw [← isSome_opt, ← abs_lsucc]
  cases hh : o.abs.lsucc a with
  | none => exact ⟨rfl, rfl⟩
  | some t =>
    simp only [Option.isSome_some, if_true]
    refine ⟨?_, trivial⟩
    rw [abs_mutate_lsucc h, hh]
    rfl

/-- one round of the innermost loop, on values -/
def addSucc1 (b a : EId) (h : Heap) : Except Err Unit × Heap := match h.lsucc a with
  | none => (.error .attributeError, h)
  | some t => (.ok (), { h with lsucc := update h.lsucc a (some (insert b t)) })

theorem attr_addLsucc (b a : EId) : (o.addLsucc b a).2.attr = o.attr := by
  unfold addLsucc
  split
  · exact attr_mutate _ _ _
  · rfl

theorem nextSet_addLsucc (b a : EId) : (o.addLsucc b a).2.nextSet = o.nextSet := by
  unfold addLsucc
  split
  · exact nextSet_mutate _ _ _
  · rfl

theorem val_addLsucc (b a : EId) {k : ℕ} (hk : o.attr a .lsucc ≠ some k) : (o.addLsucc b a).2.val k = o.val k := by
  unfold addLsucc
  split
  · exact val_mutate_ne hk _
  · rfl

/-- what the rounds of `Causet.link` keep -/
structure Linking (c : ℕ) (S : Finset EId) (g : Objs) (k : Heap) : Prop where
  sep : g.Sep
  abs : g.abs = k
  lt : c < g.nextSet
  nattr : ¬ g.IsAttr c
  val : g.val c = S

theorem linking_inner {c : ℕ} {S : Finset EId} {g : Objs} {hp : Heap} (hg : Linking c S g hp) (b : EId) {kb : ℕ} (hb : g.attr b .lprec = some kb) (ctx : List ℕ) :
    (g.loopAttr it ctx (fun a g' => g'.addLsucc b a) b .lprec).1 = (linkAddSucc b (it.ord ctx (g.val kb)) hp).1 ∧
      Linking c S (g.loopAttr it ctx (fun a g' => g'.addLsucc b a) b .lprec).2 (linkAddSucc b (it.ord ctx (g.val kb)) hp).2 := by
  have hne : ∀ g' : Objs, g'.attr = g.attr → ∀ a, g'.attr a .lsucc ≠ some kb := fun g' hg' a hh => by
    rw [hg'] at hh
    exact absurd (hg.sep.inj _ _ _ _ _ hh hb).2 (by decide)
  have hnc : ∀ g' : Objs, g'.attr = g.attr → ∀ a, g'.attr a .lsucc ≠ some c := fun g' hg' a hh => hg.nattr ⟨a, .lsucc, by rw [← hg']; exact hh⟩
  have hloop : g.loopAttr it ctx (fun a g' => g'.addLsucc b a) b .lprec = runList (fun a g' => g'.addLsucc b a) (it.ord ctx (g.val kb)) g := by
    unfold loopAttr
    rw [hb]
    show forSet _ _ _ _ _ = _
    exact forSet_eq (P := fun g' => g'.attr = g.attr ∧ g'.val kb = g.val kb) (fun g' hg' => by rw [hg'.2]) _
      (fun g' x _ hg' => ⟨(attr_addLsucc b x).trans hg'.1, (val_addLsucc b x (hne g' hg'.1 x)).trans hg'.2⟩) g ⟨rfl, rfl⟩
  rw [hloop]
  have key := runList_rel (R := fun g' k => Linking c S g' k ∧ g'.attr = g.attr) (body := fun a g' => g'.addLsucc b a) (H := addSucc1 b) (F := linkAddSucc b) (fun _ => rfl)
    (fun e es k => by
      rw [linkAddSucc]
      unfold addSucc1
      cases k.lsucc e <;> rfl) (it.ord ctx (g.val kb)) (fun g' k x _ hR => by
        obtain ⟨hL, hA⟩ := hR
        have h1 := abs_addLsucc hL.sep b x
        have h2 : (g'.addLsucc b x).1 = (addSucc1 b x k).1 ∧ (g'.addLsucc b x).2.abs = (addSucc1 b x k).2 := by
          rw [h1.1, h1.2, hL.abs]
          unfold addSucc1
          cases k.lsucc x <;> exact ⟨rfl, rfl⟩
        have hat : (g'.addLsucc b x).2.attr = g.attr := (attr_addLsucc b x).trans hA
        exact ⟨h2.1, ⟨(step_addLsucc hL.sep b x).sep, h2.2, by rw [nextSet_addLsucc]; exact hL.lt, by unfold IsAttr; rw [hat]; exact hg.nattr,
          (val_addLsucc b x (hnc g' hA x)).trans hL.val⟩, hat⟩) g hp ⟨hg, rfl⟩
  exact ⟨key.1, key.2.1⟩

theorem Linking.assign {c : ℕ} {S : Finset EId} {g : Objs} {k k' : Heap} (hg : Linking c S g k) (e : EId) (f : Field) (s : Finset EId)
    (ha : (g.assign e f s).abs = k') : Linking c S (g.assign e f s) k' := by
  have hs := step_assign hg.sep e f s
  have hk := hs.keep c hg.lt hg.nattr
  exact ⟨hs.sep, ha, lt_of_lt_of_le hg.lt hs.mono, hk.2, hk.1.trans hg.val⟩

theorem causetLink_spec (h : o.Sep) {c : ℕ} (hlt : c < o.nextSet) (hc : ¬ o.IsAttr c) :
    AgreesOn c (o.causetLink it c) (o.val c, Causets.causetLink it (o.val c) o.abs) := by
  have l0 : Linking c (o.val c) o o.abs := ⟨h, rfl, hlt, hc, rfl⟩
  -- first loop
  have hclear : ∀ (l : List EId) (k : Heap), linkClear l k = l.foldl (fun k e => { k with lsucc := update k.lsucc e (some ∅) }) k := by
    intro l
    induction l with
    | nil => intro k; rfl
    | cons x l ih => intro k; rw [linkClear, ih]; rfl
  have e1 : o.loop it [286] (fun e g => (.ok (), g.assign e .lsucc ∅)) c = (.ok (), (it.ord [286] (o.val c)).foldl (fun g e => g.assign e .lsucc ∅) o) := by
    show forSet _ _ _ _ _ = _
    rw [forSet_eq (P := fun g => ∃ k, Linking c (o.val c) g k) (fun g ⟨k, hg⟩ => by rw [hg.val]) _
      (fun g x _ ⟨k, hg⟩ => ⟨_, hg.assign x .lsucc ∅ rfl⟩) o ⟨_, l0⟩, runList_ok]
  have r1 := foldl_rel (R := Linking c (o.val c)) (F := fun g e => g.assign e .lsucc ∅) (H := fun k e => { k with lsucc := update k.lsucc e (some ∅) })
    (it.ord [286] (o.val c)) (fun g k x _ hg => hg.assign x .lsucc ∅ (by rw [abs_assign_lsucc hg.sep, hg.abs])) o o.abs l0
  rw [← hclear] at r1
  unfold causetLink Causets.causetLink
  rw [e1]
  dsimp only
  generalize (it.ord [286] (o.val c)).foldl (fun g e => g.assign e .lsucc ∅) o = o1 at r1 ⊢
  generalize linkClear (it.ord [286] (o.val c)) o.abs = k1 at r1 ⊢
  -- second loop
  have body : ∀ g k b, Linking c (o.val c) g k →
      ((g.assign b .lprec ((g.get b .prec).filter (fun a => g.isLink a b))).loopAttr it [b, 291] (fun a g' => g'.addLsucc b a) b .lprec).1 =
        (linkAddSucc b (it.ord [b, 291] (k.pastLinks b)) { k with lprec := update k.lprec b (some (k.pastLinks b)) }).1 ∧
      Linking c (o.val c) ((g.assign b .lprec ((g.get b .prec).filter (fun a => g.isLink a b))).loopAttr it [b, 291] (fun a g' => g'.addLsucc b a) b .lprec).2
        (linkAddSucc b (it.ord [b, 291] (k.pastLinks b)) { k with lprec := update k.lprec b (some (k.pastLinks b)) }).2 := by
    intro g k b hg
    have hpl : (g.get b .prec).filter (fun a => g.isLink a b) = k.pastLinks b := by rw [← hg.abs]; rfl
    rw [hpl]
    have hg1 : Linking c (o.val c) (g.assign b .lprec (k.pastLinks b)) { k with lprec := update k.lprec b (some (k.pastLinks b)) } :=
      hg.assign b .lprec _ (by rw [abs_assign_lprec hg.sep, hg.abs])
    have hkb : (g.assign b .lprec (k.pastLinks b)).attr b .lprec = some g.nextSet := by rw [attr_assign, if_pos ⟨rfl, rfl⟩]
    have hval : (g.assign b .lprec (k.pastLinks b)).val g.nextSet = k.pastLinks b := Function.update_self ..
    have := linking_inner (it := it) hg1 b hkb [b, 291]
    rw [hval] at this
    exact this
  have hord : it.ord [289] (o1.val c) = it.ord [289] (o.val c) := by rw [r1.val]
  have e2 : o1.loop it [289] (fun b g => (g.assign b .lprec ((g.get b .prec).filter (fun a => g.isLink a b))).loopAttr it [b, 291] (fun a g' => g'.addLsucc b a) b .lprec) c =
      runList (fun b g => (g.assign b .lprec ((g.get b .prec).filter (fun a => g.isLink a b))).loopAttr it [b, 291] (fun a g' => g'.addLsucc b a) b .lprec)
        (it.ord [289] (o.val c)) o1 := by
    rw [← hord]
    show forSet _ _ _ _ _ = _
    exact forSet_eq (P := fun g => ∃ k, Linking c (o.val c) g k) (fun g ⟨k, hg⟩ => by rw [hg.val, r1.val]) _ (fun g x _ ⟨k, hg⟩ => ⟨_, (body g k x hg).2⟩) o1 ⟨_, r1⟩
  have key := runList_rel (R := Linking c (o.val c))
    (body := fun b g => (g.assign b .lprec ((g.get b .prec).filter (fun a => g.isLink a b))).loopAttr it [b, 291] (fun a g' => g'.addLsucc b a) b .lprec)
    (H := fun b k => linkAddSucc b (it.ord [b, 291] (k.pastLinks b)) { k with lprec := update k.lprec b (some (k.pastLinks b)) }) (F := linkCompute it) (fun _ => rfl)
    (fun e es k => by rw [linkCompute]; rcases linkAddSucc e (it.ord [e, 291] (k.pastLinks e)) { k with lprec := update k.lprec e (some (k.pastLinks e)) } with ⟨_ | _, _⟩ <;> rfl) (it.ord [289] (o.val c)) (fun g k x _ hR => body g k x hR) o1 k1 r1
  rw [← e2] at key
  exact ⟨key.2.val, key.1, key.2.abs⟩

theorem causetUnlink_spec (c : ℕ) : AgreesOn c (o.causetUnlink it c) (o.val c, Causets.causetUnlink it (o.val c) o.abs) := by
  have hval : ∀ (g : Objs) e, (if g.hasBeenLinked e then g.unlink e else ((.ok (), g) : Except Err Unit × Objs)).2.val = g.val := fun g e => by
    split
    · exact val_unlink e
    · rfl
  have e1 : o.causetUnlink it c = runList (fun e g => if g.hasBeenLinked e then g.unlink e else (.ok (), g)) (it.ord [298] (o.val c)) o := by
    show forSet _ _ _ _ _ = _
    exact forSet_eq (P := fun g => g.val = o.val) (fun g hg => by rw [hg]) _ (fun g x _ hg => (hval g x).trans hg) o rfl
  have key := runList_rel (R := fun g k => g.abs = k ∧ g.val = o.val) (body := fun e g => if g.hasBeenLinked e then g.unlink e else (.ok (), g))
    (H := fun e k => if k.hasBeenLinked e then k.unlink e else (.ok (), k)) (F := unlinkLinked) (fun _ => rfl)
    (fun e es k => by
      rw [unlinkLinked]
      by_cases hb : k.hasBeenLinked e = true
      · rw [if_pos hb, if_pos hb]; rcases k.unlink e with ⟨_ | _, _⟩ <;> rfl
      · rw [if_neg hb, if_neg hb]) (it.ord [298] (o.val c)) (fun g k x _ hR => by
        obtain ⟨hA, hV⟩ := hR
        have hu := abs_unlink (o := g) x
        rw [hA] at hu
        have hb : k.hasBeenLinked x = g.hasBeenLinked x := by rw [← hA]; exact hasBeenLinked_abs x
        have hv' := hval g x
        rw [hb]
        by_cases hh : g.hasBeenLinked x = true
        · rw [if_pos hh] at hv' ⊢
          rw [if_pos hh, ← hu]
          exact ⟨rfl, rfl, hv'.trans hV⟩
        · rw [if_neg hh] at hv' ⊢
          rw [if_neg hh]
          exact ⟨rfl, hA, hV⟩) o o.abs ⟨rfl, rfl⟩
  rw [e1]
  exact ⟨by rw [key.2.2], key.1, key.2.1⟩

end Objs
end Causets
