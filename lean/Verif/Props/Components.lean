import Verif.Props.MergeLink

/-! # C35: `disjoint`, `isDisjoint` -/

namespace Causets

open Heap

variable {h : Heap}

/-- `a` and `b` are connected through causal relations between events of `s`. -/
def Connected (lt : ℕ → ℕ → Prop) (s : Finset ℕ) (a b : ℕ) : Prop :=
  Relation.ReflTransGen (fun x y => x ∈ s ∧ y ∈ s ∧ Related lt x y) a b

/-- what `disjoint` promises: the connected components of `s` -/
structure ComponentsSpec (lt : ℕ → ℕ → Prop) (s : Finset ℕ) (ls : List (Finset ℕ)) : Prop where
  nonempty : ∀ l ∈ ls, l.Nonempty
  cover : ∀ x, x ∈ s ↔ ∃ l ∈ ls, x ∈ l
  disjoint : ls.Pairwise Disjoint
  unrelated : ls.Pairwise (fun l l' => ∀ a ∈ l, ∀ b ∈ l', ¬ Related lt a b)
  connected : ∀ l ∈ ls, ∀ a ∈ l, ∀ b ∈ l, Connected lt l a b

theorem Connected.symm {lt : ℕ → ℕ → Prop} {s : Finset ℕ} {a b : ℕ} (hab : Connected lt s a b) :
    Connected lt s b a := by
  unfold Connected at *
  induction hab with
  | refl => exact .refl
  | tail _ h2 ih => exact Relation.ReflTransGen.head ⟨h2.2.1, h2.1, h2.2.2.symm⟩ ih

theorem Connected.restrict {lt : ℕ → ℕ → Prop} {s t : Finset ℕ} {a b : ℕ} (hab : Connected lt s a b)
    (ha : a ∈ t) (hcl : ∀ x ∈ t, ∀ y ∈ s, Related lt x y → y ∈ t) : b ∈ t ∧ Connected lt t a b := by
  unfold Connected at *
  induction hab with
  | refl => exact ⟨ha, .refl⟩
  | tail _ h2 ih =>
    obtain ⟨h3, h4⟩ := ih
    have := hcl _ h3 _ h2.2.1 h2.2.2
    exact ⟨this, h4.tail ⟨h3, this, h2.2.2⟩⟩

theorem disjointInner_spec (it : Iter) (v : h.Valid) (R : Finset EId) (x : EId) (hx : x ∈ R) :
    ∀ (fuel : ℕ) (sub : Finset EId) (pre : ℕ), x ∈ sub → sub ⊆ R →
      (∀ y ∈ sub, Connected h.Lt R x y) → R.card + 2 ≤ fuel + pre → pre ≤ R.card →
      (pre = 0 ∨ ∃ prev : Finset EId, prev.card = pre ∧ prev ⊆ sub ∧ sub = h.coneOf it prev true false ∩ R) →
      ∃ l, h.disjointInner it R fuel sub pre = .ok l ∧ x ∈ l ∧ l ⊆ R ∧
        (∀ y ∈ l, Connected h.Lt R x y) ∧ ∀ a ∈ l, ∀ b ∈ R, Related h.Lt a b → b ∈ l := by
  intro fuel
  induction fuel with
  | zero => intro sub pre _ _ _ h1 h2; omega
  | succ fuel ih =>
    intro sub pre hxs hsR hconn hf hpre hprev
    unfold disjointInner
    have hcard := Finset.card_le_card hsR
    by_cases hlt : pre < sub.card
    · rw [if_pos hlt]
      have hsub : sub ⊆ h.coneOf it sub true false ∩ R := fun y hy =>
        Finset.mem_inter.2 ⟨subset_coneOf it v sub hy, hsR hy⟩
      refine ih _ _ (hsub hxs) Finset.inter_subset_right ?_ (by omega) hcard (Or.inr ⟨sub, rfl, hsub, rfl⟩)
      intro y hy
      rw [Finset.mem_inter, C24_coneOf it v] at hy
      obtain ⟨hy1 | ⟨e, he, hr⟩, hyR⟩ := hy
      · exact hconn y hy1.2
      · exact (hconn e he).tail ⟨hsR he, hyR, hr⟩
    · rw [if_neg hlt]
      refine ⟨sub, rfl, hxs, hsR, hconn, ?_⟩
      have hpos : 0 < sub.card := Finset.card_pos.2 ⟨x, hxs⟩
      rcases hprev with h0 | ⟨prev, h1, h2, h3⟩
      · omega
      · have heq : prev = sub := Finset.eq_of_subset_of_card_le h2 (by omega)
        subst heq
        intro a ha b hb hab
        rw [h3, Finset.mem_inter, C24_coneOf it v]
        exact ⟨Or.inr ⟨a, ha, hab⟩, hb⟩

theorem disjointLoop_spec (it : Iter) (v : h.Valid) : ∀ (fuel : ℕ) (R : Finset EId), R.card ≤ fuel →
    ∃ ls, h.disjointLoop it fuel R = .ok ls ∧ ComponentsSpec h.Lt R ls := by
  have hnil : ComponentsSpec h.Lt ∅ [] := ⟨by simp, by simp, List.Pairwise.nil, List.Pairwise.nil, by simp⟩
  intro fuel
  induction fuel with
  | zero =>
    intro R hR
    have : R = ∅ := Finset.card_eq_zero.1 (by omega)
    subst this
    exact ⟨[], by simp [disjointLoop], hnil⟩
  | succ fuel ih =>
    intro R hR
    unfold disjointLoop
    cases ho : it.ord [1105] R with
    | nil =>
      have : R = ∅ := by
        rw [Finset.eq_empty_iff_forall_notMem]
        intro x hx
        rw [← it.mem [1105], ho] at hx
        simp at hx
      subst this
      exact ⟨[], rfl, hnil⟩
    | cons x t =>
      have hxR : x ∈ R := by rw [← it.mem [1105], ho]; simp
      obtain ⟨l, h1, h2, h3, h4, h5⟩ := disjointInner_spec it v R x hxR (R.card + 2) {x} 0 (by simp)
        (by simpa using hxR) (fun y hy => by rw [Finset.mem_singleton] at hy; subst hy; exact .refl)
        (by omega) (by omega) (Or.inl rfl)
      obtain ⟨ls, h6, h7⟩ := ih (R \ l) (by
        have := Finset.card_sdiff_of_subset h3
        have : 0 < l.card := Finset.card_pos.2 ⟨x, h2⟩
        have := Finset.card_le_card h3
        omega)
      simp only [h1, h6]
      refine ⟨l :: ls, rfl, ?_, ?_, ?_, ?_, ?_⟩
      · intro l' hl'
        rcases List.mem_cons.1 hl' with rfl | hl'
        exacts [⟨x, h2⟩, h7.nonempty l' hl']
      · intro y
        constructor
        · intro hy
          by_cases hyl : y ∈ l
          · exact ⟨l, by simp, hyl⟩
          · obtain ⟨l', hl', hy'⟩ := (h7.cover y).1 (Finset.mem_sdiff.2 ⟨hy, hyl⟩)
            exact ⟨l', by simp [hl'], hy'⟩
        · rintro ⟨l', hl', hy⟩
          rcases List.mem_cons.1 hl' with rfl | hl'
          · exact h3 hy
          · exact (Finset.mem_sdiff.1 ((h7.cover y).2 ⟨l', hl', hy⟩)).1
      · refine List.pairwise_cons.2 ⟨fun l' hl' => ?_, h7.disjoint⟩
        rw [Finset.disjoint_left]
        intro y hy hy'
        exact (Finset.mem_sdiff.1 ((h7.cover y).2 ⟨l', hl', hy'⟩)).2 hy
      · refine List.pairwise_cons.2 ⟨fun l' hl' a ha b hb hab => ?_, h7.unrelated⟩
        have := Finset.mem_sdiff.1 ((h7.cover b).2 ⟨l', hl', hb⟩)
        exact this.2 (h5 a ha b this.1 hab)
      · intro l' hl' a ha b hb
        rcases List.mem_cons.1 hl' with rfl | hl'
        · have ha' := ((h4 a ha).restrict h2 h5).2
          have hb' := ((h4 b hb).restrict h2 h5).2
          exact ha'.symm.trans hb'
        · exact h7.connected l' hl' a ha b hb

/-- **C35.** `disjoint(S)` terminates and returns the connected components of `S`, whatever the iteration order. -/
theorem C35_disjoint (it : Iter) (v : h.Valid) (C s : Finset EId) :
    (∃ ls, h.disjointSets it C (some s) = .ok ls ∧ ComponentsSpec h.Lt s ls) ∧
    (∃ ls, h.disjointSets it C none = .ok ls ∧ ComponentsSpec h.Lt C ls) :=
  ⟨disjointLoop_spec it v s.card s le_rfl, disjointLoop_spec it v C.card C le_rfl⟩

/-- **C35, `isDisjoint`** says whether there are two events of `S` that are not connected within `S`. -/
theorem C35_isDisjoint (it : Iter) (v : h.Valid) (C s : Finset EId) :
    ∃ b, h.isDisjoint it C (some s) = .ok b ∧
      (b = true ↔ ∃ x ∈ s, ∃ y ∈ s, ¬ Connected h.Lt s x y) := by
  obtain ⟨ls, h1, sp⟩ := (C35_disjoint it v C s).1
  refine ⟨decide (ls.length > 1), by simp [isDisjoint, h1], ?_⟩
  rw [decide_eq_true_eq]
  -- components are closed in `s`
  have hmono : ∀ l ∈ ls, ∀ a b, Connected h.Lt l a b → Connected h.Lt s a b := fun l hl a b hab => by
    induction hab with
    | refl => exact Relation.ReflTransGen.refl
    | @tail x y _ hxy ih => exact ih.tail ⟨(sp.cover x).2 ⟨l, hl, hxy.1⟩, (sp.cover y).2 ⟨l, hl, hxy.2.1⟩, hxy.2.2⟩
  constructor
  · intro hlen
    match ls, sp, hlen with
    | l :: l' :: t, sp, _ =>
      obtain ⟨x, hx⟩ := sp.nonempty l (by simp)
      obtain ⟨y, hy⟩ := sp.nonempty l' (by simp)
      refine ⟨x, (sp.cover x).2 ⟨l, by simp, hx⟩, y, (sp.cover y).2 ⟨l', by simp, hy⟩, fun hc => ?_⟩
      have hcl : ∀ a ∈ l, ∀ b ∈ s, Related h.Lt a b → b ∈ l := by
        intro a ha b hb hab
        obtain ⟨m, hm, hbm⟩ := (sp.cover b).1 hb
        rcases List.mem_cons.1 hm with rfl | hm
        · exact hbm
        · exact absurd hab ((List.pairwise_cons.1 sp.unrelated).1 m hm a ha b hbm)
      have hyl := (hc.restrict hx hcl).1
      exact Finset.disjoint_left.1 ((List.pairwise_cons.1 sp.disjoint).1 l' (by simp)) hyl hy
  · rintro ⟨x, hx, y, hy, hn⟩
    by_contra hlen
    obtain ⟨l, hl, hxl⟩ := (sp.cover x).1 hx
    obtain ⟨l', hl', hyl⟩ := (sp.cover y).1 hy
    have : l = l' := by
      match ls, hl, hl', hlen with
      | [a], hl, hl', _ => rw [List.mem_singleton] at hl hl'; rw [hl, hl']
      | a :: b :: t, _, _, hlen => exact absurd (by simp) hlen
    subst this
    exact hn (hmono l hl _ _ (sp.connected l hl x hxl y hyl))

/-- the whole diamond is connected, its two middle events are not -/
example : exDiamond.Valid ∧
    (exDiamond.disjointSets Iter.asc {0, 1, 2, 3} none).toOption = some [{0, 1, 2, 3}] ∧
    (exDiamond.disjointSets Iter.asc ∅ (some {1, 2})).toOption = some [{1}, {2}] ∧
    (exDiamond.isDisjoint Iter.asc ∅ (some {1, 2})).toOption = some true :=
  ⟨exDiamond_valid, by decide, by decide, by decide⟩

end Causets
