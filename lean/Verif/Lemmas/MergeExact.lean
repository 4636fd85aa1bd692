import Verif.Lemmas.Merge
import Mathlib.Data.List.Nodup
import Mathlib.Data.Finset.Preimage

/-! # The link memory after `merge`, for every iteration order -/

namespace Causets

open Function (update)

namespace Heap

/-- the body of the two loops of `merge` -/
def joinStep (g : Heap) (w : EId × EId) : Heap := ((g.addToFuture w.1 w.2).2.addToPast w.2 w.1).2

theorem mergeInner_eq_foldl (p : EId) (L : List EId) (h : Heap) :
    mergeInner p L h = (L.map (fun f => (p, f))).foldl joinStep h := by
  induction L generalizing h with
  | nil => rfl
  | cons f fs ih => rw [mergeInner, ih]; rfl

/-- the pairs in the order in which `merge` joins them -/
def joinList (it : Iter) (F : Finset EId) (L : List EId) : List (EId × EId) :=
  L.flatMap (fun p => (it.ord [p, 238] F).map (fun f => (p, f)))

theorem mergeLoop_eq_foldl (it : Iter) (F : Finset EId) (L : List EId) (h : Heap) :
    mergeLoop it F L h = (joinList it F L).foldl joinStep h := by
  induction L generalizing h with
  | nil => rfl
  | cons p ps ih =>
    rw [mergeLoop, ih, mergeInner_eq_foldl]
    simp [joinList, List.foldl_append]

theorem mem_joinList (it : Iter) (F : Finset EId) (L : List EId) (p f : EId) :
    (p, f) ∈ joinList it F L ↔ p ∈ L ∧ f ∈ F := by
  simp only [joinList, List.mem_flatMap, List.mem_map, it.mem, Prod.mk.injEq]
  constructor
  · rintro ⟨a, ha, b, hb, rfl, rfl⟩; exact ⟨ha, hb⟩
  · rintro ⟨h1, h2⟩; exact ⟨p, h1, f, h2, rfl, rfl⟩

theorem nodup_joinList (it : Iter) (F : Finset EId) (L : List EId) (hn : L.Nodup) :
    (joinList it F L).Nodup := by
  rw [joinList, List.nodup_flatMap]
  refine ⟨fun p _ => (it.nodup _ _).map (fun a b hab => by simpa using hab), ?_⟩
  refine hn.imp ?_
  intro a b hab
  rw [Function.onFun, List.disjoint_left]
  rintro ⟨x, y⟩ h1 h2
  simp only [List.mem_map, Prod.mk.injEq] at h1 h2
  obtain ⟨_, _, rfl, -⟩ := h1
  obtain ⟨_, _, rfl, -⟩ := h2
  exact hab rfl

/-- At its turn in the list `W` of pairs, `(p, f)` looks like a link: no pair `(p', f)` with `p' > p` and no pair
`(p, f')` with `f' < f` comes before it. -/
def LooksLinked (lt : EId → EId → Prop) (W : List (EId × EId)) (p f : EId) : Prop :=
  (∀ p', lt p p' → ¬ W.idxOf (p', f) < W.idxOf (p, f)) ∧
  (∀ f', lt f' f → ¬ W.idxOf (p, f') < W.idxOf (p, f))

theorem idxOf_append_mem {α : Type} [BEq α] [LawfulBEq α] (W : List α) (w x y : α) (hy : y ∈ W) :
    (W ++ [w]).idxOf x < (W ++ [w]).idxOf y ↔ W.idxOf x < W.idxOf y := by
  rw [List.idxOf_append_of_mem hy]
  by_cases hx : x ∈ W
  · rw [List.idxOf_append_of_mem hx]
  · rw [List.idxOf_append_of_notMem hx, List.idxOf_of_notMem hx]
    have := List.idxOf_lt_length_of_mem hy
    omega

theorem idxOf_append_last {α : Type} [BEq α] [LawfulBEq α] (W : List α) (w x : α) (hw : w ∉ W) :
    (W ++ [w]).idxOf x < (W ++ [w]).idxOf w ↔ x ∈ W := by
  rw [List.idxOf_append_of_notMem hw, List.idxOf_cons_self]
  by_cases hx : x ∈ W
  · rw [List.idxOf_append_of_mem hx]
    have := List.idxOf_lt_length_of_mem hx
    simp [hx, this]
  · rw [List.idxOf_append_of_notMem hx]
    simp [hx]

theorem looksLinked_append {lt : EId → EId → Prop} {W : List (EId × EId)} {w : EId × EId} {p f : EId}
    (hp : (p, f) ∈ W) : LooksLinked lt (W ++ [w]) p f ↔ LooksLinked lt W p f := by
  simp only [LooksLinked, idxOf_append_mem W w _ _ hp]

theorem looksLinked_last {lt : EId → EId → Prop} {W : List (EId × EId)} {p f : EId}
    (hp : (p, f) ∉ W) : LooksLinked lt (W ++ [(p, f)]) p f ↔
      (∀ p', lt p p' → (p', f) ∉ W) ∧ (∀ f', lt f' f → (p, f') ∉ W) := by
  simp only [LooksLinked, idxOf_append_last W _ _ hp]

/-- the state after joining the pairs of `W` -/
structure JoinInv (h : Heap) (W : List (EId × EId)) (g : Heap) : Prop where
  next : g.next = h.next
  label : g.label = h.label
  prec : ∀ a b, a ∈ g.prec b ↔ h.Lt a b ∨ (a, b) ∈ W
  succ : ∀ a b, b ∈ g.succ a ↔ h.Lt a b ∨ (a, b) ∈ W
  pnone : ∀ y, h.lprec y = none → g.lprec y = none
  snone : ∀ y, h.lsucc y = none → g.lsucc y = none
  psome : ∀ y s, h.lprec y = some s → h.lsucc y ≠ none → ∃ s', g.lprec y = some s' ∧ ∀ x, x ∈ s' ↔ x ∈ s ∨
    ((x, y) ∈ W ∧ LooksLinked h.Lt W x y ∧ ∀ p', h.Lt x p' → (p', y) ∈ W → ¬ LooksLinked h.Lt W p' y)
  ssome : ∀ y s, h.lsucc y = some s → h.lprec y ≠ none → ∃ s', g.lsucc y = some s' ∧ ∀ x, x ∈ s' ↔ x ∈ s ∨
    ((y, x) ∈ W ∧ LooksLinked h.Lt W y x ∧ ∀ f', h.Lt f' x → (y, f') ∈ W → ¬ LooksLinked h.Lt W y f')

set_option maxHeartbeats 1000000 in
theorem joinInv (h : Heap) (v : h.Valid) (lx : h.LinksExact) (P F : Finset EId)
    (hP : Closed h.Lt P) (hF : Closed h.Lt F) (hd : Disjoint P F)
    (W : List (EId × EId)) (hn : W.Nodup) (hW : ∀ w ∈ W, w.1 ∈ P ∧ w.2 ∈ F) :
    JoinInv h W (W.foldl joinStep h) := by
  have dis : ∀ x, x ∈ P → x ∈ F → False := fun x h1 h2 => Finset.disjoint_left.1 hd h1 h2
  induction W using List.reverseRecOn with
  | nil =>
    refine ⟨rfl, rfl, fun a b => by simp [v.mem_prec], fun a b => by simp [v.mem_succ],
      fun y hy => hy, fun y hy => hy, fun y s hs _ => ⟨s, hs, by simp⟩, fun y s hs _ => ⟨s, hs, by simp⟩⟩
  | append_singleton W w ih =>
    obtain ⟨p, f⟩ := w
    obtain ⟨hnW, -, hw⟩ := List.nodup_append.1 hn
    have hw : (p, f) ∉ W := fun hh => hw _ hh (p, f) (by simp) rfl
    have hWm : ∀ w ∈ W, w.1 ∈ P ∧ w.2 ∈ F := fun w hw => hW w (by simp [hw])
    have hpf : p ∈ P ∧ f ∈ F := hW (p, f) (by simp)
    have I := ih hnW hWm
    rw [List.foldl_append, List.foldl_cons, List.foldl_nil]
    set g := W.foldl joinStep h with gdef
    have hne : p ≠ f := fun hh => dis p hpf.1 (hh ▸ hpf.2)
    have npf : ¬ h.Lt p f := fun hh => dis f (hP p hpf.1 f (Or.inl hh)) hpf.2
    have c1 : f ∉ g.succ p := by rw [I.succ]; simp [npf, hw]
    have c2 : p ∉ (g.addToFuture p f).2.prec f := by rw [addToFuture_prec, I.prec]; simp [npf, hw]
    -- what the link test says
    have LL : LooksLinked h.Lt (W ++ [(p, f)]) p f ↔ g.isLink p f = true := by
      rw [looksLinked_last hw, isLink, decide_eq_true_eq, Finset.eq_empty_iff_forall_notMem]
      simp only [Finset.mem_inter, I.succ, I.prec]
      constructor
      · rintro ⟨h1, h2⟩ c ⟨h3 | h3, h4 | h4⟩
        · exact npf (v.trans h3 h4)
        · exact h1 c h3 h4
        · exact h2 c h4 h3
        · exact dis c (hWm _ h4).1 (hWm _ h3).2
      · intro h1
        exact ⟨fun p' h2 h3 => h1 p' ⟨Or.inl h2, Or.inr h3⟩, fun f' h2 h3 => h1 f' ⟨Or.inr h3, Or.inl h2⟩⟩
    have LL' : (g.addToFuture p f).2.isLink p f = g.isLink p f := by
      simp only [isLink, addToFuture_succ, addToFuture_prec, Function.update_self]
      congr 1
      have : f ∉ g.prec f := by
        rw [I.prec]
        rintro (h1 | h1)
        · exact v.irrefl _ h1
        · exact dis f (hWm _ h1).1 hpf.2
      rw [Finset.insert_inter_of_notMem this]
    have Spl : (g.addToFuture p f).2.lprec = g.lprec := addToFuture_lprec ..
    have Ssl := addToFuture_lsucc g p f c1
    have Ppl := addToPast_lprec (g.addToFuture p f).2 f p c2
    have Psl : (joinStep g (p, f)).lsucc = (g.addToFuture p f).2.lsucc := addToPast_lsucc ..
    have lsf : (g.addToFuture p f).2.lsucc f = g.lsucc f := by
      rw [Ssl]; split_ifs
      · rw [Function.update_of_ne hne.symm]
      · rfl
    have blf : (g.addToFuture p f).2.hasBeenLinked f = g.hasBeenLinked f := by
      simp [hasBeenLinked, Spl, lsf]
    have sf : ∀ x, x ∈ g.succ f ↔ h.Lt f x := by
      intro x; rw [I.succ]
      constructor
      · rintro (h1 | h1)
        · exact h1
        · exact absurd (hWm _ h1).1 (fun hh => dis f hh hpf.2)
      · exact Or.inl
    have pp : ∀ x, x ∈ (g.addToFuture p f).2.prec p ↔ h.Lt x p := by
      intro x; rw [addToFuture_prec, I.prec]
      constructor
      · rintro (h1 | h1)
        · exact h1
        · exact absurd (hWm _ h1).2 (fun hh => dis p hpf.1 hh)
      · exact Or.inl
    have newP : (joinStep g (p, f)).lprec = if g.hasBeenLinked f && g.isLink p f then
        update g.lprec f ((g.lprec f).map (fun s => insert p (s \ (g.addToFuture p f).2.prec p)))
        else g.lprec := by
      show ((g.addToFuture p f).2.addToPast f p).2.lprec = _
      rw [Ppl, blf, LL', Spl]
    have newS : (joinStep g (p, f)).lsucc = if g.hasBeenLinked p && g.isLink p f then
        update g.lsucc p ((g.lsucc p).map (fun s => insert f (s \ g.succ f)))
        else g.lsucc := by
      rw [Psl, Ssl]
    refine ⟨?_, ?_, ?_, ?_, ?_, ?_, ?_, ?_⟩
    · exact (mergeStep_fields g p f).1.trans I.next
    · exact (mergeStep_fields g p f).2.1.trans I.label
    · intro a b
      have := (mergeStep_fields g p f).2.2.1
      show a ∈ ((g.addToFuture p f).2.addToPast f p).2.prec b ↔ _
      rw [this]
      by_cases hb : b = f
      · subst hb
        rw [Function.update_self, Finset.mem_insert, I.prec, List.mem_append, List.mem_singleton,
          Prod.mk.injEq, and_iff_left rfl, or_left_comm, or_comm (a := a = p)]
      · rw [Function.update_of_ne hb, I.prec, List.mem_append, List.mem_singleton, Prod.mk.injEq]
        simp only [hb, and_false, or_false]
    · intro a b
      have := (mergeStep_fields g p f).2.2.2
      show b ∈ ((g.addToFuture p f).2.addToPast f p).2.succ a ↔ _
      rw [this]
      by_cases hb : a = p
      · subst hb
        rw [Function.update_self, Finset.mem_insert, I.succ, List.mem_append, List.mem_singleton,
          Prod.mk.injEq, and_iff_right rfl, or_left_comm, or_comm (a := b = f)]
      · rw [Function.update_of_ne hb, I.succ, List.mem_append, List.mem_singleton, Prod.mk.injEq]
        simp only [hb, false_and, or_false]
    · intro y hy
      have := I.pnone y hy
      rw [newP]
      split_ifs
      · by_cases hyf : y = f
        · subst hyf; simp [this]
        · rw [Function.update_of_ne hyf, this]
      · exact this
    · intro y hy
      have := I.snone y hy
      rw [newS]
      split_ifs
      · by_cases hyf : y = p
        · subst hyf; simp [this]
        · rw [Function.update_of_ne hyf, this]
      · exact this
    · intro y s hs hs2
      obtain ⟨s', hs', hx⟩ := I.psome y s hs hs2
      by_cases hyf : y = f
      · subst hyf
        -- membership of s in F, of p-values in P
        have sF : ∀ x ∈ s, x ∈ F := fun x hxs => hF y hpf.2 x (Or.inr ((lx.past y s hs x).1 hxs).1)
        have lk : g.hasBeenLinked y = true := by
          obtain ⟨t, ht⟩ := Option.ne_none_iff_exists'.1 hs2
          obtain ⟨t', ht', -⟩ := I.ssome y t ht (by rw [hs]; simp)
          simp [hasBeenLinked, hs', ht']
        by_cases hl : g.isLink p y = true
        · refine ⟨insert p (s' \ (g.addToFuture p y).2.prec p), by rw [newP]; simp [lk, hl, hs'], fun x => ?_⟩
          have hLL := LL.2 hl
          have hLL' := (looksLinked_last hw).1 hLL
          rw [Finset.mem_insert, Finset.mem_sdiff, pp, hx]
          by_cases hxp : x = p
          · subst hxp
            simp only [true_or, true_iff]
            refine Or.inr ⟨by simp, hLL, fun p' h1 h2 _ => ?_⟩
            rcases List.mem_append.1 h2 with h2 | h2
            · exact hLL'.1 p' h1 h2
            · simp only [List.mem_singleton, Prod.mk.injEq, and_true] at h2
              exact v.ne h1 h2.symm
          · simp only [hxp, false_or]
            constructor
            · rintro ⟨h1 | ⟨h1, h2, h3⟩, h4⟩
              · exact Or.inl h1
              · refine Or.inr ⟨by simp [h1], (looksLinked_append h1).2 h2, fun p' h5 h6 => ?_⟩
                rcases List.mem_append.1 h6 with h6 | h6
                · rw [looksLinked_append h6]; exact h3 p' h5 h6
                · simp only [List.mem_singleton, Prod.mk.injEq, and_true] at h6
                  subst h6; exact absurd h5 h4
            · rintro (h1 | ⟨h1, h2, h3⟩)
              · refine ⟨Or.inl h1, fun h4 => ?_⟩
                exact dis x (hP p hpf.1 x (Or.inr h4)) (sF x h1)
              · have h1' : (x, y) ∈ W := by
                  rcases List.mem_append.1 h1 with h1 | h1
                  · exact h1
                  · simp only [List.mem_singleton, Prod.mk.injEq, and_true] at h1; exact absurd h1 hxp
                refine ⟨Or.inr ⟨h1', (looksLinked_append h1').1 h2, fun p' h5 h6 => ?_⟩, fun h4 => ?_⟩
                · rw [← looksLinked_append (w := (p, y)) h6]; exact h3 p' h5 (by simp [h6])
                · exact h3 p h4 (by simp) hLL
        · refine ⟨s', by rw [newP]; simp [hl, hs'], fun x => ?_⟩
          have hLL : ¬ LooksLinked h.Lt (W ++ [(p, y)]) p y := fun hh => hl (LL.1 hh)
          rw [hx]
          refine or_congr_right ?_
          constructor
          · rintro ⟨h1, h2, h3⟩
            refine ⟨by simp [h1], (looksLinked_append h1).2 h2, fun p' h5 h6 => ?_⟩
            rcases List.mem_append.1 h6 with h6 | h6
            · rw [looksLinked_append h6]; exact h3 p' h5 h6
            · simp only [List.mem_singleton, Prod.mk.injEq, and_true] at h6
              subst h6; exact hLL
          · rintro ⟨h1, h2, h3⟩
            have h1' : (x, y) ∈ W := by
              rcases List.mem_append.1 h1 with h1 | h1
              · exact h1
              · simp only [List.mem_singleton, Prod.mk.injEq, and_true] at h1
                subst h1; exact absurd h2 hLL
            refine ⟨h1', (looksLinked_append h1').1 h2, fun p' h5 h6 => ?_⟩
            rw [← looksLinked_append (w := (p, y)) h6]; exact h3 p' h5 (by simp [h6])
      · refine ⟨s', ?_, fun x => ?_⟩
        · rw [newP]; split_ifs
          · rw [Function.update_of_ne hyf, hs']
          · exact hs'
        · rw [hx]
          refine or_congr_right ?_
          have m : ∀ a, (a, y) ∈ W ++ [(p, f)] ↔ (a, y) ∈ W := by simp [hyf]
          simp only [m]
          refine and_congr_right fun h1 => ?_
          rw [looksLinked_append h1]
          refine and_congr_right fun _ => forall_congr' fun p' => imp_congr_right fun _ => ?_
          refine forall_congr' fun h6 => ?_
          rw [looksLinked_append h6]
    · intro y s hs hs2
      obtain ⟨s', hs', hx⟩ := I.ssome y s hs hs2
      by_cases hyf : y = p
      · subst hyf
        have sP : ∀ x ∈ s, x ∈ P := fun x hxs => hP y hpf.1 x (Or.inl ((lx.future y s hs x).1 hxs).1)
        have lk : g.hasBeenLinked y = true := by
          obtain ⟨t, ht⟩ := Option.ne_none_iff_exists'.1 hs2
          obtain ⟨t', ht', -⟩ := I.psome y t ht (by rw [hs]; simp)
          simp [hasBeenLinked, hs', ht']
        by_cases hl : g.isLink y f = true
        · refine ⟨insert f (s' \ g.succ f), by rw [newS]; simp [lk, hl, hs'], fun x => ?_⟩
          have hLL := LL.2 hl
          have hLL' := (looksLinked_last hw).1 hLL
          rw [Finset.mem_insert, Finset.mem_sdiff, sf, hx]
          by_cases hxp : x = f
          · subst hxp
            simp only [true_or, true_iff]
            refine Or.inr ⟨by simp, hLL, fun f' h1 h2 _ => ?_⟩
            rcases List.mem_append.1 h2 with h2 | h2
            · exact hLL'.2 f' h1 h2
            · simp only [List.mem_singleton, Prod.mk.injEq, true_and] at h2
              exact v.ne h1 h2
          · simp only [hxp, false_or]
            constructor
            · rintro ⟨h1 | ⟨h1, h2, h3⟩, h4⟩
              · exact Or.inl h1
              · refine Or.inr ⟨by simp [h1], (looksLinked_append h1).2 h2, fun p' h5 h6 => ?_⟩
                rcases List.mem_append.1 h6 with h6 | h6
                · rw [looksLinked_append h6]; exact h3 p' h5 h6
                · simp only [List.mem_singleton, Prod.mk.injEq, true_and] at h6
                  subst h6; exact absurd h5 h4
            · rintro (h1 | ⟨h1, h2, h3⟩)
              · refine ⟨Or.inl h1, fun h4 => ?_⟩
                exact dis x (sP x h1) (hF f hpf.2 x (Or.inl h4))
              · have h1' : (y, x) ∈ W := by
                  rcases List.mem_append.1 h1 with h1 | h1
                  · exact h1
                  · simp only [List.mem_singleton, Prod.mk.injEq, true_and] at h1; exact absurd h1 hxp
                refine ⟨Or.inr ⟨h1', (looksLinked_append h1').1 h2, fun p' h5 h6 => ?_⟩, fun h4 => ?_⟩
                · rw [← looksLinked_append (w := (y, f)) h6]; exact h3 p' h5 (by simp [h6])
                · exact h3 f h4 (by simp) hLL
        · refine ⟨s', by rw [newS]; simp [hl, hs'], fun x => ?_⟩
          have hLL : ¬ LooksLinked h.Lt (W ++ [(y, f)]) y f := fun hh => hl (LL.1 hh)
          rw [hx]
          refine or_congr_right ?_
          constructor
          · rintro ⟨h1, h2, h3⟩
            refine ⟨by simp [h1], (looksLinked_append h1).2 h2, fun p' h5 h6 => ?_⟩
            rcases List.mem_append.1 h6 with h6 | h6
            · rw [looksLinked_append h6]; exact h3 p' h5 h6
            · simp only [List.mem_singleton, Prod.mk.injEq, true_and] at h6
              subst h6; exact hLL
          · rintro ⟨h1, h2, h3⟩
            have h1' : (y, x) ∈ W := by
              rcases List.mem_append.1 h1 with h1 | h1
              · exact h1
              · simp only [List.mem_singleton, Prod.mk.injEq, true_and] at h1
                subst h1; exact absurd h2 hLL
            refine ⟨h1', (looksLinked_append h1').1 h2, fun p' h5 h6 => ?_⟩
            rw [← looksLinked_append (w := (y, f)) h6]; exact h3 p' h5 (by simp [h6])
      · refine ⟨s', ?_, fun x => ?_⟩
        · rw [newS]; split_ifs
          · rw [Function.update_of_ne hyf, hs']
          · exact hs'
        · rw [hx]
          refine or_congr_right ?_
          have m : ∀ a, (y, a) ∈ W ++ [(p, f)] ↔ (y, a) ∈ W := by simp [hyf]
          simp only [m]
          refine and_congr_right fun h1 => ?_
          rw [looksLinked_append h1]
          refine and_congr_right fun _ => forall_congr' fun p' => imp_congr_right fun _ => ?_
          refine forall_congr' fun h6 => ?_
          rw [looksLinked_append h6]

end Heap

end Causets
