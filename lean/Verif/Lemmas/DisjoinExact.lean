import Verif.Lemmas.Disjoin

/-! # The link memory after `disjoin`, for every iteration order -/

namespace Causets

open Function (update)

/-- `a` and `b` have `e` and nothing else between them: they become linked when `e` is taken out. -/
def OnlyBetween (lt : ℕ → ℕ → Prop) (a e b : ℕ) : Prop :=
  lt a e ∧ lt e b ∧ ∀ c, lt a c → lt c b → c = e

namespace Heap

theorem idxOf_lt_split {L A B : List EId} {x y : EId} (hL : L = A ++ y :: B) (hn : L.Nodup) :
    L.idxOf x < L.idxOf y ↔ x ∈ A := by
  subst hL
  have hyA : y ∉ A := fun hh => (List.nodup_append.1 hn).2.2 y hh y (by simp) rfl
  rw [List.idxOf_append_of_notMem hyA, List.idxOf_cons_self]
  constructor
  · intro h1
    by_contra hx
    rw [List.idxOf_append_of_notMem hx] at h1
    omega
  · intro hx
    rw [List.idxOf_append_of_mem hx]
    have := List.idxOf_lt_length_of_mem hx
    omega

/-- the link memory of an event visited by the loop of `disjoin` -/
theorem foldl_discard_at (h : Heap) (v : h.Valid) (lx : h.LinksExact) (e y : EId) (hy : y ≠ e)
    (A B : List EId) (hn : (A ++ y :: B).Nodup) (s t : Finset EId)
    (hs : h.lprec y = some s) (ht : h.lsucc y = some t) :
    let h1 : Heap := { h with lprec := update h.lprec e none
                              lsucc := update h.lsucc e none }
    let g := (A ++ y :: B).foldl (fun g x => (g.discard x e).2) h1
    (∃ s', g.lprec y = some s' ∧
      ∀ x, x ∈ s' ↔ (x ∈ s ∧ x ≠ e) ∨ (OnlyBetween h.Lt x e y ∧ x ∈ A)) ∧
    (∃ t', g.lsucc y = some t' ∧
      ∀ x, x ∈ t' ↔ (x ∈ t ∧ x ≠ e) ∨ (OnlyBetween h.Lt y e x ∧ x ∈ A)) := by
  intro h1
  have hL : ∀ x, ¬ (e ∈ h1.prec x ∧ e ∈ h1.succ x) := by
    intro x hx
    simp only [h1, v.mem_prec, v.mem_succ] at hx
    exact v.asymm hx.1 hx.2
  obtain ⟨nA, nyB, hdis⟩ := List.nodup_append.1 hn
  have hyA : y ∉ A := fun hh => hdis y hh y (by simp) rfl
  have hyB : y ∉ B := (List.nodup_cons.1 nyB).1
  obtain ⟨-, -, o1, o2⟩ := foldl_discard_order e A nA h1 hL
  have hk := foldl_discard_other e y A hyA h1
  rw [List.foldl_append, List.foldl_cons]
  set g := A.foldl (fun g x => (g.discard x e).2) h1 with gdef
  have hB := foldl_discard_other e y B hyB (g.discard y e).2
  dsimp only at hB ⊢
  rw [hB.2.2.1, hB.2.2.2]
  have p0 : g.lprec y = some s := by rw [hk.2.2.1]; simp [h1, hy, hs]
  have s0 : g.lsucc y = some t := by rw [hk.2.2.2]; simp [h1, hy, ht]
  have pp : g.prec y = h.prec y := hk.1
  have ss : g.succ y = h.succ y := hk.2.1
  have nl : g.hasBeenLinked y = true := by simp [hasBeenLinked, p0, s0]
  have ms := lx.past y s hs
  have mt := lx.future y t ht
  have eP : g.prec e = h.prec e := by
    rw [o1 e]
    split_ifs
    · exact Finset.erase_eq_of_notMem (by rw [v.mem_prec]; exact v.irrefl e)
    · rfl
  have eS : g.succ e = h.succ e := by
    rw [o2 e]
    split_ifs
    · exact Finset.erase_eq_of_notMem (by rw [v.mem_succ]; exact v.irrefl e)
    · rfl
  have lkP : ∀ x, h.Lt x e → h.Lt e y →
      (g.isLink x y = true ↔ (∀ c, h.Lt x c → h.Lt c y → c = e) ∧ x ∈ A) := by
    intro x hxe hey
    rw [isLink, decide_eq_true_eq, Finset.eq_empty_iff_forall_notMem, pp, o2 x]
    simp only [Finset.mem_inter, v.mem_prec]
    by_cases hxA : x ∈ A
    · simp only [hxA, if_true, Finset.mem_erase, h1, v.mem_succ, and_true]
      constructor
      · intro hh c c1 c2
        by_contra hc
        exact hh c ⟨⟨hc, c1⟩, c2⟩
      · rintro hh c ⟨⟨hc, c1⟩, c2⟩
        exact hc (hh c c1 c2)
    · simp only [hxA, if_false, h1, v.mem_succ, and_false, iff_false]
      intro hh
      exact hh e ⟨hxe, hey⟩
  have lkS : ∀ x, h.Lt e x → h.Lt y e →
      (g.isLink y x = true ↔ (∀ c, h.Lt y c → h.Lt c x → c = e) ∧ x ∈ A) := by
    intro x hxe hey
    rw [isLink, decide_eq_true_eq, Finset.eq_empty_iff_forall_notMem, ss, o1 x]
    simp only [Finset.mem_inter, v.mem_succ]
    by_cases hxA : x ∈ A
    · simp only [hxA, if_true, Finset.mem_erase, h1, v.mem_prec, and_true]
      constructor
      · intro hh c c1 c2
        by_contra hc
        exact hh c ⟨c1, hc, c2⟩
      · rintro hh c ⟨c1, hc, c2⟩
        exact hc (hh c c1 c2)
    · simp only [hxA, if_false, h1, v.mem_prec, and_false, iff_false]
      intro hh
      exact hh e ⟨hey, hxe⟩
  unfold discard; dsimp only
  by_cases c1 : e ∈ g.prec y
  · have hlt : h.Lt e y := by rwa [pp, v.mem_prec] at c1
    have ft : ∀ x, x ∈ t ↔ (x ∈ t ∧ x ≠ e) ∨ (OnlyBetween h.Lt y e x ∧ x ∈ A) := by
      intro x
      constructor
      · intro hx
        refine Or.inl ⟨hx, ?_⟩
        rintro rfl
        exact v.asymm hlt ((mt x).1 hx).1
      · rintro (hx | hx)
        · exact hx.1
        · exact absurd hx.1.1 (v.asymm hlt)
    rw [if_pos c1]
    by_cases c2 : e ∈ s
    · have c3 : (g.hasBeenLinked y && decide (e ∈ (g.lprec y).getD ∅)) = true := by simp [nl, p0, c2]
      rw [if_pos c3]
      refine ⟨⟨(s ∪ (g.prec e).filter (fun x => g.isLink x y)).erase e, by simp [p0], fun x => ?_⟩,
        t, s0, ft⟩
      rw [Finset.mem_erase, Finset.mem_union, Finset.mem_filter, eP, v.mem_prec]
      constructor
      · rintro ⟨h2, h3 | ⟨h3, h4⟩⟩
        · exact Or.inl ⟨h3, h2⟩
        · obtain ⟨h5, h6⟩ := (lkP x h3 hlt).1 h4
          exact Or.inr ⟨⟨h3, hlt, h5⟩, h6⟩
      · rintro (h3 | ⟨h3, h4⟩)
        · exact ⟨h3.2, Or.inl h3.1⟩
        · exact ⟨v.ne h3.1, Or.inr ⟨h3.1, (lkP x h3.1 hlt).2 ⟨h3.2.2, h4⟩⟩⟩
    · have c3 : ¬ (g.hasBeenLinked y && decide (e ∈ (g.lprec y).getD ∅)) = true := by
        simp [p0, c2]
      rw [if_neg c3]
      refine ⟨⟨s, p0, fun x => ?_⟩, t, s0, ft⟩
      constructor
      · intro hx
        exact Or.inl ⟨hx, fun hh => c2 (hh ▸ hx)⟩
      · rintro (hx | hx)
        · exact hx.1
        · exfalso
          apply c2
          rw [ms]
          refine ⟨hlt, ?_⟩
          rintro c ⟨h3, h4⟩
          have := hx.1.2.2 c (v.trans hx.1.1 h3) h4
          subst this
          exact v.irrefl _ h3
  · have hnlt : ¬ h.Lt e y := by rwa [pp, v.mem_prec] at c1
    have fs : ∀ x, x ∈ s ↔ (x ∈ s ∧ x ≠ e) ∨ (OnlyBetween h.Lt x e y ∧ x ∈ A) := by
      intro x
      constructor
      · intro hx
        refine Or.inl ⟨hx, ?_⟩
        rintro rfl
        exact hnlt ((ms x).1 hx).1
      · rintro (hx | hx)
        · exact hx.1
        · exact absurd hx.1.2.1 hnlt
    rw [if_neg c1]
    by_cases c4 : e ∈ g.succ y
    · have hlt : h.Lt y e := by rwa [ss, v.mem_succ] at c4
      rw [if_pos c4]
      by_cases c2 : e ∈ t
      · have c3 : (g.hasBeenLinked y && decide (e ∈ (g.lsucc y).getD ∅)) = true := by
          simp [nl, s0, c2]
        rw [if_pos c3]
        refine ⟨⟨s, p0, fs⟩, (t ∪ (g.succ e).filter (fun x => g.isLink y x)).erase e,
          by simp [s0], fun x => ?_⟩
        rw [Finset.mem_erase, Finset.mem_union, Finset.mem_filter, eS, v.mem_succ]
        constructor
        · rintro ⟨h2, h3 | ⟨h3, h4⟩⟩
          · exact Or.inl ⟨h3, h2⟩
          · obtain ⟨h5, h6⟩ := (lkS x h3 hlt).1 h4
            exact Or.inr ⟨⟨hlt, h3, h5⟩, h6⟩
        · rintro (h3 | ⟨h3, h4⟩)
          · exact ⟨h3.2, Or.inl h3.1⟩
          · exact ⟨(v.ne h3.2.1).symm, Or.inr ⟨h3.2.1, (lkS x h3.2.1 hlt).2 ⟨h3.2.2, h4⟩⟩⟩
      · have c3 : ¬ (g.hasBeenLinked y && decide (e ∈ (g.lsucc y).getD ∅)) = true := by
          simp [s0, c2]
        rw [if_neg c3]
        refine ⟨⟨s, p0, fs⟩, t, s0, fun x => ?_⟩
        constructor
        · intro hx
          exact Or.inl ⟨hx, fun hh => c2 (hh ▸ hx)⟩
        · rintro (hx | hx)
          · exact hx.1
          · exfalso
            apply c2
            rw [mt]
            refine ⟨hlt, ?_⟩
            rintro c ⟨h3, h4⟩
            have := hx.1.2.2 c h3 (v.trans h4 hx.1.2.1)
            subst this
            exact v.irrefl _ h4
    · have hnlt' : ¬ h.Lt y e := by rwa [ss, v.mem_succ] at c4
      rw [if_neg c4]
      refine ⟨⟨s, p0, fs⟩, t, s0, fun x => ?_⟩
      constructor
      · intro hx
        refine Or.inl ⟨hx, ?_⟩
        rintro rfl
        exact hnlt' ((mt x).1 hx).1
      · rintro (hx | hx)
        · exact hx.1
        · exact absurd hx.1.1 hnlt'

/-- The order in which `disjoin` visits the events: the iteration order of the cone of `e`. -/
def visitedBefore (h : Heap) (it : Iter) (e x y : EId) : Prop :=
  (it.ord [e, 0] (h.cone e)).idxOf x < (it.ord [e, 0] (h.cone e)).idxOf y

/-- `disjoin_eq` with the visited list made explicit -/
theorem disjoin_eq' (it : Iter) (h : Heap) (v : h.Valid) (e : EId) (hl : h.hasBeenLinked e = true) :
      (h.disjoin it e).2 =
        let g := (it.ord [e, 0] (h.cone e)).foldl (fun g x => (g.discard x e).2)
          { h with lprec := update h.lprec e none
                   lsucc := update h.lsucc e none }
        { g with prec := update g.prec e ∅
                 succ := update g.succ e ∅ } := by
  unfold disjoin
  rw [unlink_ok h e hl]
  set h1 : Heap := { h with lprec := update h.lprec e none
                            lsucc := update h.lsucc e none } with h1def
  have hL : ∀ x, ¬ (e ∈ h1.prec x ∧ e ∈ h1.succ x) := by
    intro x hx
    simp only [h1def, v.mem_prec, v.mem_succ] at hx
    exact v.asymm hx.1 hx.2
  have hc : h1.cone e = h.cone e := rfl
  obtain ⟨-, -, a3, a4⟩ := foldl_discard_order e (it.ord [e, 0] (h1.cone e)) (it.nodup _ _) h1 hL
  dsimp only
  rw [hc] at a3 a4 ⊢
  set g := (it.ord [e, 0] (h.cone e)).foldl (fun g x => (g.discard x e).2) h1 with gdef
  rw [foldl_discard_none]
  intro x _
  have hx1 : e ∉ g.prec x := by
    rw [a3 x]
    split_ifs with hx
    · simp
    · rw [it.mem] at hx
      intro hh
      apply hx
      simp only [h1def, v.mem_prec] at hh
      exact v.mem_cone.2 (Or.inr (Or.inr hh))
  have hx2 : e ∉ g.succ x := by
    rw [a4 x]
    split_ifs with hx
    · simp
    · rw [it.mem] at hx
      intro hh
      apply hx
      simp only [h1def, v.mem_succ] at hh
      exact v.mem_cone.2 (Or.inl hh)
  refine ⟨?_, hx2⟩
  by_cases hxe : x = e
  · subst hxe; simp
  · simpa [hxe] using hx1

theorem disjoin_memory (it : Iter) (h : Heap) (v : h.Valid) (lx : h.LinksExact) (e : EId)
    (hl : h.hasBeenLinked e = true) (y : EId) :
    (y = e ∨ h.hasBeenLinked y = false →
      (h.disjoin it e).2.lprec y = none ∧ (h.disjoin it e).2.lsucc y = none) ∧
    (y ≠ e → h.hasBeenLinked y = true →
      (∃ s, (h.disjoin it e).2.lprec y = some s ∧ ∀ x, x ∈ s ↔
        (Covers h.Lt x y ∧ x ≠ e) ∨ (OnlyBetween h.Lt x e y ∧ h.visitedBefore it e x y)) ∧
      (∃ t, (h.disjoin it e).2.lsucc y = some t ∧ ∀ x, x ∈ t ↔
        (Covers h.Lt y x ∧ x ≠ e) ∨ (OnlyBetween h.Lt y e x ∧ h.visitedBefore it e x y))) := by
  have heq := disjoin_eq' it h v e hl
  have hn := it.nodup [e, 0] (h.cone e)
  have hm := it.mem [e, 0] (h.cone e)
  constructor
  · intro hc
    have key : ∀ (L : List EId) (g : Heap), g.lprec y = none → g.lsucc y = none →
        (L.foldl (fun g x => (g.discard x e).2) g).lprec y = none ∧
        (L.foldl (fun g x => (g.discard x e).2) g).lsucc y = none := by
      intro L
      induction L with
      | nil => exact fun g g1 g2 => ⟨g1, g2⟩
      | cons x xs ih =>
        intro g g1 g2
        rw [List.foldl_cons]
        apply ih
        · by_cases hx : y = x
          · subst hx
            have nl : g.hasBeenLinked y = false := by simp [hasBeenLinked, g1]
            unfold discard; dsimp only
            split_ifs <;> simp_all
          · rw [(discard_other g x e y hx).2.2.1, g1]
        · by_cases hx : y = x
          · subst hx
            have nl : g.hasBeenLinked y = false := by simp [hasBeenLinked, g1]
            unfold discard; dsimp only
            split_ifs <;> simp_all
          · rw [(discard_other g x e y hx).2.2.2, g2]
    rw [heq]
    dsimp only
    apply key
    · by_cases hy : y = e
      · simp [hy]
      · have h2 := hc.resolve_left hy
        dsimp only
        rw [Function.update_of_ne hy]
        simp only [hasBeenLinked, Bool.and_eq_false_iff, Option.isSome_eq_false_iff,
          Option.isNone_iff_eq_none] at h2
        rcases h2 with h2 | h2
        · exact h2
        · exact (lx.both y).2 h2
    · by_cases hy : y = e
      · simp [hy]
      · have h2 := hc.resolve_left hy
        dsimp only
        rw [Function.update_of_ne hy]
        simp only [hasBeenLinked, Bool.and_eq_false_iff, Option.isSome_eq_false_iff,
          Option.isNone_iff_eq_none] at h2
        rcases h2 with h2 | h2
        · exact (lx.both y).1 h2
        · exact h2
  · intro hy hly
    simp only [hasBeenLinked, Bool.and_eq_true, Option.isSome_iff_exists] at hly
    obtain ⟨⟨s, hs⟩, t, ht⟩ := hly
    rw [heq]
    dsimp only
    by_cases hyL : y ∈ it.ord [e, 0] (h.cone e)
    · obtain ⟨A, B, hAB⟩ := List.append_of_mem hyL
      have hb : ∀ x, h.visitedBefore it e x y ↔ x ∈ A := fun x => idxOf_lt_split hAB hn
      have := foldl_discard_at h v lx e y hy A B (hAB ▸ hn) s t hs ht
      rw [← hAB] at this
      simp only [hb, ← lx.past y s hs, ← lx.future y t ht]
      exact this
    · have ho := foldl_discard_other e y _ hyL
        { h with lprec := update h.lprec e none
                 lsucc := update h.lsucc e none }
      dsimp only at ho
      have hnc : ¬ h.Lt y e ∧ ¬ h.Lt e y := by
        constructor
        · exact fun hh => hyL ((hm y).2 (v.mem_cone.2 (Or.inl hh)))
        · exact fun hh => hyL ((hm y).2 (v.mem_cone.2 (Or.inr (Or.inr hh))))
      refine ⟨⟨s, ?_, fun x => ?_⟩, t, ?_, fun x => ?_⟩
      · rw [ho.2.2.1, Function.update_of_ne hy, hs]
      · rw [lx.past y s hs]
        constructor
        · exact fun hx => Or.inl ⟨hx, fun hh => hnc.2 (hh ▸ hx.1)⟩
        · rintro (hx | hx)
          · exact hx.1
          · exact absurd hx.1.2.1 hnc.2
      · rw [ho.2.2.2, Function.update_of_ne hy, ht]
      · rw [lx.future y t ht]
        constructor
        · exact fun hx => Or.inl ⟨hx, fun hh => hnc.1 (hh ▸ hx.1)⟩
        · rintro (hx | hx)
          · exact hx.1
          · exact absurd hx.1.1 hnc.1

/-- the links of the order after `disjoin` -/
theorem disjoin_covers_iff (it : Iter) (h : Heap) (v : h.Valid) (e : EId)
    (hl : h.hasBeenLinked e = true) (x y : EId) :
    Covers (h.disjoin it e).2.Lt x y ↔
      (Covers h.Lt x y ∧ x ≠ e ∧ y ≠ e) ∨ OnlyBetween h.Lt x e y := by
  obtain ⟨-, -, -, h4, -⟩ := disjoin_fields it h v e hl
  have hlt : ∀ x y, (h.disjoin it e).2.Lt x y ↔ h.Lt x y ∧ x ≠ e ∧ y ≠ e :=
    fun x y => by rw [lt_iff, h4]
  simp only [Covers, hlt]
  constructor
  · rintro ⟨⟨a1, a2, a3⟩, a4⟩
    have key : ∀ c, h.Lt x c → h.Lt c y → c = e := fun c c2 c3 => by
      by_contra c1
      exact a4 c ⟨⟨c2, a2, c1⟩, c3, c1, a3⟩
    by_cases hc : h.Lt x e ∧ h.Lt e y
    · exact Or.inr ⟨hc.1, hc.2, key⟩
    · refine Or.inl ⟨⟨a1, fun c hh => ?_⟩, a2, a3⟩
      have := key c hh.1 hh.2
      subst this
      exact hc hh
  · rintro (⟨⟨a1, a4⟩, a2, a3⟩ | ⟨a1, a2, a3⟩)
    · exact ⟨⟨a1, a2, a3⟩, fun c hc => a4 c ⟨hc.1.1, hc.2.1⟩⟩
    · exact ⟨⟨v.trans a1 a2, v.ne a1, (v.ne a2).symm⟩, fun c hc => hc.1.2.2 (a3 c hc.1.1 hc.2.1)⟩

/-- `disjoin` leaves the link memory exact iff every event with link memory at the end of a new link is
visited after the other end. -/
theorem disjoin_linksExact_iff (it : Iter) (h : Heap) (v : h.Valid) (lx : h.LinksExact) (e : EId)
    (hl : h.hasBeenLinked e = true) :
    (h.disjoin it e).2.LinksExact ↔ ∀ a b, OnlyBetween h.Lt a e b →
      (h.hasBeenLinked a = true → h.visitedBefore it e b a) ∧
      (h.hasBeenLinked b = true → h.visitedBefore it e a b) := by
  have hmem := disjoin_memory it h v lx e hl
  have hcov := disjoin_covers_iff it h v e hl
  constructor
  · intro lx' a b hab
    constructor
    · intro ha
      obtain ⟨-, t, ht, hx⟩ := (hmem a).2 (v.ne hab.1) ha
      have := (hx b).1 ((lx'.future a t ht b).2 ((hcov a b).2 (Or.inr hab)))
      rcases this with h1 | h1
      · exact absurd ⟨hab.1, hab.2.1⟩ (h1.1.2 e)
      · exact h1.2
    · intro hb
      obtain ⟨⟨s, hs, hx⟩, -⟩ := (hmem b).2 (v.ne hab.2.1).symm hb
      have := (hx a).1 ((lx'.past b s hs a).2 ((hcov a b).2 (Or.inr hab)))
      rcases this with h1 | h1
      · exact absurd ⟨hab.1, hab.2.1⟩ (h1.1.2 e)
      · exact h1.2
  · intro hh
    refine ⟨fun y s hs x => ?_, fun y s hs x => ?_, fun y => ?_⟩
    · by_cases hc : y = e ∨ h.hasBeenLinked y = false
      · rw [((hmem y).1 hc).1] at hs; cases hs
      · push Not at hc
        have hly : h.hasBeenLinked y = true := by simpa using hc.2
        obtain ⟨⟨s', hs', hx⟩, -⟩ := (hmem y).2 hc.1 hly
        rw [hs] at hs'
        cases hs'
        rw [hx, hcov]
        constructor
        · rintro (h1 | h1)
          · exact Or.inl ⟨h1.1, h1.2, hc.1⟩
          · exact Or.inr h1.1
        · rintro (h1 | h1)
          · exact Or.inl ⟨h1.1, h1.2.1⟩
          · exact Or.inr ⟨h1, (hh x y h1).2 hly⟩
    · by_cases hc : y = e ∨ h.hasBeenLinked y = false
      · rw [((hmem y).1 hc).2] at hs; cases hs
      · push Not at hc
        have hly : h.hasBeenLinked y = true := by simpa using hc.2
        obtain ⟨-, s', hs', hx⟩ := (hmem y).2 hc.1 hly
        rw [hs] at hs'
        cases hs'
        rw [hx, hcov]
        constructor
        · rintro (h1 | h1)
          · exact Or.inl ⟨h1.1, hc.1, h1.2⟩
          · exact Or.inr h1.1
        · rintro (h1 | h1)
          · exact Or.inl ⟨h1.1, h1.2.2⟩
          · exact Or.inr ⟨h1, (hh y x h1).1 hly⟩
    · by_cases hc : y = e ∨ h.hasBeenLinked y = false
      · simp [((hmem y).1 hc).1, ((hmem y).1 hc).2]
      · push Not at hc
        have hly : h.hasBeenLinked y = true := by simpa using hc.2
        obtain ⟨⟨s', hs', -⟩, t', ht', -⟩ := (hmem y).2 hc.1 hly
        simp [hs', ht']

end Heap

end Causets
