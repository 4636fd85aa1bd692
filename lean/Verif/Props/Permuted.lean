import Verif.Model.Permutations
import Verif.Props.Components
import Verif.Props.Cones

/-! # C59 — `permuted` (causetpermutations.py:432-545) -/

namespace Causets
open Heap

variable {h : Heap}

/-- **Specification.** An order on a finite set that can be taken apart by removing least and greatest events and by splitting unconnected parts. -/
inductive Decomposable (lt : ℕ → ℕ → Prop) : Finset ℕ → Prop
  | empty : Decomposable lt ∅
  | least (E : Finset ℕ) (e : ℕ) : e ∈ E → (∀ x ∈ E, x ≠ e → lt e x) → Decomposable lt (E.erase e) → Decomposable lt E
  | greatest (E : Finset ℕ) (e : ℕ) : e ∈ E → (∀ x ∈ E, x ≠ e → lt x e) → Decomposable lt (E.erase e) → Decomposable lt E
  | union (E : Finset ℕ) (ls : List (Finset ℕ)) : ComponentsSpec lt E ls → 2 ≤ ls.length → (∀ l ∈ ls, Decomposable lt l) → Decomposable lt E

/-- **Specification.** The list has every event of the set once, no event after one of its future events. -/
def TopologicalList (lt : ℕ → ℕ → Prop) (E : Finset ℕ) (L : List ℕ) : Prop := L.Nodup ∧ (∀ x, x ∈ L ↔ x ∈ E) ∧ L.Pairwise (fun a b => ¬ lt b a)

section components

variable {lt : ℕ → ℕ → Prop} {s : Finset ℕ} {ls : List (Finset ℕ)}

theorem ComponentsSpec.apart (sp : ComponentsSpec lt s ls) {l l' : Finset ℕ} (hl : l ∈ ls) (hl' : l' ∈ ls) (hne : l ≠ l') :
    ∀ a ∈ l, ∀ b ∈ l', ¬ Related lt a b := by
  have : Std.Symm (fun l l' : Finset ℕ => ∀ a ∈ l, ∀ b ∈ l', ¬ Related lt a b) := ⟨fun _ _ hr a ha b hb hab => hr b hb a ha hab.symm⟩
  exact List.Pairwise.forall sp.unrelated hl hl' hne

theorem ComponentsSpec.closed (sp : ComponentsSpec lt s ls) {l : Finset ℕ} (hl : l ∈ ls) : ∀ a ∈ l, ∀ b ∈ s, Related lt a b → b ∈ l := by
  intro a ha b hb hab
  obtain ⟨m, hm, hbm⟩ := (sp.cover b).1 hb
  by_cases e : l = m
  · exact e ▸ hbm
  · exact absurd hab (sp.apart hl hm e a ha b hbm)

theorem ComponentsSpec.mem_iff (sp : ComponentsSpec lt s ls) {l : Finset ℕ} (hl : l ∈ ls) {x : ℕ} (hx : x ∈ l) (y : ℕ) :
    y ∈ l ↔ Connected lt s x y := by
  constructor
  · intro hy
    have : ∀ a b, Connected lt l a b → Connected lt s a b := fun a b hab => by
      induction hab with
      | refl => exact Relation.ReflTransGen.refl
      | @tail x y _ hxy ih => exact ih.tail ⟨(sp.cover x).2 ⟨l, hl, hxy.1⟩, (sp.cover y).2 ⟨l, hl, hxy.2.1⟩, hxy.2.2⟩
    exact this _ _ (sp.connected l hl x hx y hy)
  · intro hc
    exact (hc.restrict hx (sp.closed hl)).1

theorem ComponentsSpec.same {ls' : List (Finset ℕ)} (sp : ComponentsSpec lt s ls) (sp' : ComponentsSpec lt s ls') {l : Finset ℕ} (hl : l ∈ ls) : l ∈ ls' := by
  obtain ⟨x, hx⟩ := sp.nonempty l hl
  obtain ⟨l', hl', hx'⟩ := (sp'.cover x).1 ((sp.cover x).2 ⟨l, hl, hx⟩)
  have : l = l' := by ext y; rw [sp.mem_iff hl hx, sp'.mem_iff hl' hx']
  exact this ▸ hl'

theorem ComponentsSpec.ne_of_two (sp : ComponentsSpec lt s ls) (h2 : 2 ≤ ls.length) : ∃ l ∈ ls, ∃ l' ∈ ls, l ≠ l' := by
  match ls, sp, h2 with
  | a :: b :: t, sp, _ =>
    refine ⟨a, by simp, b, by simp, fun e => ?_⟩
    obtain ⟨x, hx⟩ := sp.nonempty a (by simp)
    exact Finset.disjoint_left.1 ((List.pairwise_cons.1 sp.disjoint).1 b (by simp)) hx (e ▸ hx)

/-- a set with a least (or greatest) event is connected: it has no two components -/
theorem ComponentsSpec.hub (sp : ComponentsSpec lt s ls) {e : ℕ} (he : e ∈ s) (hall : ∀ x ∈ s, x ≠ e → Related lt e x) : ls = [s] := by
  obtain ⟨l, hl, hel⟩ := (sp.cover e).1 he
  have hs : l = s := by
    ext y
    constructor
    · intro hy; exact (sp.cover y).2 ⟨l, hl, hy⟩
    · intro hy
      by_cases hye : y = e
      · exact hye ▸ hel
      · exact sp.closed hl e hel y hy (hall y hy hye)
  have hlen : ¬ 2 ≤ ls.length := by
    intro h2
    obtain ⟨a, ha, b, hb, hne⟩ := sp.ne_of_two h2
    have key : ∀ m ∈ ls, m = l := by
      intro m hm
      by_contra hml
      obtain ⟨x, hx⟩ := sp.nonempty m hm
      have hxs : x ∈ l := hs ▸ (sp.cover x).2 ⟨m, hm, hx⟩
      have : m = l := by ext y; rw [sp.mem_iff hm hx, sp.mem_iff hl hxs]
      exact hml this
    exact hne ((key a ha).trans (key b hb).symm)
  match ls, hl, hlen with
  | [a], hl, _ => rw [List.mem_singleton] at hl; rw [← hl, hs]
  | a :: b :: t, _, hlen => exact absurd (by simp) hlen

end components

section order

variable {lt : ℕ → ℕ → Prop}

theorem Decomposable.components {E : Finset ℕ} (hD : Decomposable lt E) {ls : List (Finset ℕ)} (sp : ComponentsSpec lt E ls) : ∀ l ∈ ls, Decomposable lt l := by
  intro l hl
  cases hD with
  | empty =>
    obtain ⟨x, hx⟩ := sp.nonempty l hl
    exact absurd ((sp.cover x).2 ⟨l, hl, hx⟩) (by simp)
  | least _ e he hall hD =>
    have := sp.hub he (fun x hx hne => Or.inl (hall x hx hne))
    subst this
    rw [List.mem_singleton] at hl
    rw [hl]; exact .least E e he hall hD
  | greatest _ e he hall hD =>
    have := sp.hub he (fun x hx hne => Or.inr (hall x hx hne))
    subst this
    rw [List.mem_singleton] at hl
    rw [hl]; exact .greatest E e he hall hD
  | union _ ls' sp' _ hall => exact hall l (sp.same sp' hl)

theorem Decomposable.erase_least (o : StrictOrd lt) {E : Finset ℕ} (hD : Decomposable lt E) : ∀ e ∈ E, (∀ x ∈ E, x ≠ e → lt e x) → Decomposable lt (E.erase e) := by
  induction hD with
  | empty => intro e he; simp at he
  | least E f hf hall hD _ =>
    intro e he hle
    by_cases hef : e = f
    · rw [hef]; exact hD
    · exact absurd (o.trans _ _ _ (hall e he hef) (hle f hf (Ne.symm hef))) (o.irrefl f)
  | greatest E f hf hall hD ih =>
    intro e he hle
    by_cases hef : e = f
    · rw [hef]; exact hD
    · have h1 := ih e (Finset.mem_erase.2 ⟨hef, he⟩) (fun x hx hne => hle x (Finset.mem_of_mem_erase hx) hne)
      refine .greatest _ f (Finset.mem_erase.2 ⟨Ne.symm hef, hf⟩) (fun x hx hne => hall x (Finset.mem_of_mem_erase hx) hne) ?_
      rw [Finset.erase_right_comm]; exact h1
  | union E ls sp h2 hall _ =>
    intro e he hle
    have := sp.hub he (fun x hx hne => Or.inl (hle x hx hne))
    rw [this] at h2; simp at h2

theorem Decomposable.erase_greatest (o : StrictOrd lt) {E : Finset ℕ} (hD : Decomposable lt E) : ∀ e ∈ E, (∀ x ∈ E, x ≠ e → lt x e) → Decomposable lt (E.erase e) := by
  induction hD with
  | empty => intro e he; simp at he
  | greatest E f hf hall hD _ =>
    intro e he hle
    by_cases hef : e = f
    · rw [hef]; exact hD
    · exact absurd (o.trans _ _ _ (hle f hf (Ne.symm hef)) (hall e he hef)) (o.irrefl f)
  | least E f hf hall hD ih =>
    intro e he hle
    by_cases hef : e = f
    · rw [hef]; exact hD
    · have h1 := ih e (Finset.mem_erase.2 ⟨hef, he⟩) (fun x hx hne => hle x (Finset.mem_of_mem_erase hx) hne)
      refine .least _ f (Finset.mem_erase.2 ⟨Ne.symm hef, hf⟩) (fun x hx hne => hall x (Finset.mem_of_mem_erase hx) hne) ?_
      rw [Finset.erase_right_comm]; exact h1
  | union E ls sp h2 hall _ =>
    intro e he hle
    have := sp.hub he (fun x hx hne => Or.inr (hle x hx hne))
    rw [this] at h2; simp at h2

end order

/-! ## The two `while` loops -/

theorem pastInf_least (v : h.Valid) {E : Finset EId} {e : EId} (he : h.pastInfOf E = {e}) : e ∈ E ∧ ∀ x ∈ E, x ≠ e → h.Lt e x := by
  have h1 : e ∈ h.pastInfOf E := by rw [he]; simp
  refine ⟨((C23_pastInfOf v E e).1 h1).1, fun x hx hne => ?_⟩
  obtain ⟨m, hm, hle⟩ := (C23_bounding v E).1 x hx
  rw [he, Finset.mem_singleton] at hm
  subst hm
  exact ((le_iff h m x).1 hle).resolve_left (Ne.symm hne)

theorem futureInf_greatest (v : h.Valid) {E : Finset EId} {e : EId} (he : h.futureInfOf E = {e}) : e ∈ E ∧ ∀ x ∈ E, x ≠ e → h.Lt x e := by
  have h1 : e ∈ h.futureInfOf E := by rw [he]; simp
  refine ⟨((C23_futureInfOf v E e).1 h1).1, fun x hx hne => ?_⟩
  obtain ⟨m, hm, hle⟩ := (C23_bounding v E).2.1 x hx
  rw [he, Finset.mem_singleton] at hm
  subst hm
  exact ((le_iff h x m).1 hle).resolve_left hne

theorem ord_singleton (it : Iter) (c : List ℕ) (s : Finset ℕ) (e : ℕ) : it.ord c s = [e] ↔ s = {e} := by
  constructor
  · intro ho
    ext x; rw [← it.mem c, ho]; simp
  · rintro rfl
    have h1 := it.nodup c {e}
    have h2 := it.mem c {e}
    match ho : it.ord c {e}, h1, h2 with
    | [], _, h2 => exact absurd ((h2 e).2 (by simp)) (by simp)
    | [a], _, h2 => have := (h2 a).1 (by simp); simp at this; rw [this]
    | a :: b :: t, h1, h2 =>
      have e1 := (h2 a).1 (by simp)
      have e2 := (h2 b).1 (by simp)
      rw [Finset.mem_singleton] at e1 e2
      rw [e1, e2] at h1
      simp at h1

/-- no single minimal event -/
def NoLeast (h : Heap) (E : Finset EId) : Prop := ∀ e ∈ E, ¬ ∀ x ∈ E, x ≠ e → h.Lt e x
def NoGreatest (h : Heap) (E : Finset EId) : Prop := ∀ e ∈ E, ¬ ∀ x ∈ E, x ≠ e → h.Lt x e

theorem least_pastInf (v : h.Valid) {E : Finset EId} {e : EId} (he : e ∈ E) (hall : ∀ x ∈ E, x ≠ e → h.Lt e x) : h.pastInfOf E = {e} := by
  ext x
  rw [C23_pastInfOf v, Finset.mem_singleton]
  constructor
  · rintro ⟨hx, hm⟩
    by_contra hne
    exact hm e he (hall x hx hne)
  · rintro rfl
    refine ⟨he, fun y hy hl => ?_⟩
    by_cases hyx : y = x
    · rw [hyx] at hl; exact v.order.irrefl x hl
    · exact v.order.irrefl x (v.order.trans _ _ _ (hall y hy hyx) hl)

theorem greatest_futureInf (v : h.Valid) {E : Finset EId} {e : EId} (he : e ∈ E) (hall : ∀ x ∈ E, x ≠ e → h.Lt x e) : h.futureInfOf E = {e} := by
  ext x
  rw [C23_futureInfOf v, Finset.mem_singleton]
  constructor
  · rintro ⟨hx, hm⟩
    by_contra hne
    exact hm e he (hall x hx hne)
  · rintro rfl
    refine ⟨he, fun y hy hl => ?_⟩
    by_cases hyx : y = x
    · rw [hyx] at hl; exact v.order.irrefl x hl
    · exact v.order.irrefl x (v.order.trans _ _ _ hl (hall y hy hyx))

theorem stripPast_spec (it : Iter) (v : h.Valid) : ∀ (fuel : ℕ) (E : Finset EId), E.card ≤ fuel →
    (h.stripPast it fuel E).1.Nodup ∧ (∀ x, x ∈ E ↔ x ∈ (h.stripPast it fuel E).1 ∨ x ∈ (h.stripPast it fuel E).2) ∧
    (∀ x ∈ (h.stripPast it fuel E).1, x ∉ (h.stripPast it fuel E).2) ∧ (h.stripPast it fuel E).1.Pairwise h.Lt ∧
    (∀ a ∈ (h.stripPast it fuel E).1, ∀ b ∈ (h.stripPast it fuel E).2, h.Lt a b) ∧ NoLeast h (h.stripPast it fuel E).2 ∧
    (Decomposable h.Lt E ↔ Decomposable h.Lt (h.stripPast it fuel E).2) := by
  intro fuel
  induction fuel with
  | zero =>
    intro E hE
    have : E = ∅ := by simpa using hE
    subst this
    simp [stripPast, NoLeast]
  | succ fuel ih =>
    intro E hE
    rw [stripPast]
    split
    · rename_i e ho
      rw [ord_singleton] at ho
      obtain ⟨he, hall⟩ := pastInf_least v ho
      obtain ⟨i1, i2, i3, i4, i5, i6, i7⟩ := ih (E.erase e) (by rw [Finset.card_erase_of_mem he]; omega)
      simp only
      have hsub1 : ∀ x ∈ (h.stripPast it fuel (E.erase e)).1, x ∈ E ∧ x ≠ e := fun x hx => by
        have := Finset.mem_erase.1 ((i2 x).2 (Or.inl hx)); exact ⟨this.2, this.1⟩
      have hsub2 : ∀ x ∈ (h.stripPast it fuel (E.erase e)).2, x ∈ E ∧ x ≠ e := fun x hx => by
        have := Finset.mem_erase.1 ((i2 x).2 (Or.inr hx)); exact ⟨this.2, this.1⟩
      refine ⟨?_, ?_, ?_, ?_, ?_, i6, ?_⟩
      · exact List.nodup_cons.2 ⟨fun hm => (hsub1 e hm).2 rfl, i1⟩
      · intro x
        simp only [List.mem_cons]
        have := i2 x
        rw [Finset.mem_erase] at this
        constructor
        · intro hx
          by_cases hxe : x = e
          · exact Or.inl (Or.inl hxe)
          · exact (this.1 ⟨hxe, hx⟩).imp Or.inr id
        · rintro ((rfl | hx) | hx)
          · exact he
          · exact (hsub1 x hx).1
          · exact (hsub2 x hx).1
      · intro x hx
        rcases List.mem_cons.1 hx with rfl | hx
        · exact fun hm => (hsub2 _ hm).2 rfl
        · exact i3 x hx
      · exact List.pairwise_cons.2 ⟨fun x hx => hall x (hsub1 x hx).1 (hsub1 x hx).2, i4⟩
      · intro a ha b hb
        rcases List.mem_cons.1 ha with rfl | ha
        · exact hall b (hsub2 b hb).1 (hsub2 b hb).2
        · exact i5 a ha b hb
      · rw [← i7]
        exact ⟨fun hD => hD.erase_least v.order e he hall, fun hD => .least E e he hall hD⟩
    · rename_i hno
      refine ⟨by simp, by simp, by simp, by simp, by simp, ?_, Iff.rfl⟩
      intro e he hall
      exact hno e ((ord_singleton it _ _ e).2 (least_pastInf v he hall))

theorem stripFuture_spec (it : Iter) (v : h.Valid) : ∀ (fuel : ℕ) (E : Finset EId), E.card ≤ fuel →
    (h.stripFuture it fuel E).1.Nodup ∧ (∀ x, x ∈ E ↔ x ∈ (h.stripFuture it fuel E).1 ∨ x ∈ (h.stripFuture it fuel E).2) ∧
    (∀ x ∈ (h.stripFuture it fuel E).1, x ∉ (h.stripFuture it fuel E).2) ∧ (h.stripFuture it fuel E).1.Pairwise h.Lt ∧
    (∀ a ∈ (h.stripFuture it fuel E).1, ∀ b ∈ (h.stripFuture it fuel E).2, h.Lt b a) ∧ NoGreatest h (h.stripFuture it fuel E).2 ∧
    (Decomposable h.Lt E ↔ Decomposable h.Lt (h.stripFuture it fuel E).2) ∧ (NoLeast h E → NoLeast h (h.stripFuture it fuel E).2) := by
  intro fuel
  induction fuel with
  | zero =>
    intro E hE
    have : E = ∅ := by simpa using hE
    subst this
    simp [stripFuture, NoGreatest]
  | succ fuel ih =>
    intro E hE
    rw [stripFuture]
    split
    · rename_i e ho
      rw [ord_singleton] at ho
      obtain ⟨he, hall⟩ := futureInf_greatest v ho
      obtain ⟨i1, i2, i3, i4, i5, i6, i7, i8⟩ := ih (E.erase e) (by rw [Finset.card_erase_of_mem he]; omega)
      simp only
      have hsub1 : ∀ x ∈ (h.stripFuture it fuel (E.erase e)).1, x ∈ E ∧ x ≠ e := fun x hx => by
        have := Finset.mem_erase.1 ((i2 x).2 (Or.inl hx)); exact ⟨this.2, this.1⟩
      have hsub2 : ∀ x ∈ (h.stripFuture it fuel (E.erase e)).2, x ∈ E ∧ x ≠ e := fun x hx => by
        have := Finset.mem_erase.1 ((i2 x).2 (Or.inr hx)); exact ⟨this.2, this.1⟩
      refine ⟨?_, ?_, ?_, ?_, ?_, i6, ?_, ?_⟩
      · rw [List.nodup_append]
        refine ⟨i1, by simp, fun a ha b hb => ?_⟩
        rw [List.mem_singleton] at hb
        rw [hb]; exact (hsub1 a ha).2
      · intro x
        simp only [List.mem_append, List.mem_singleton]
        have := i2 x
        rw [Finset.mem_erase] at this
        constructor
        · intro hx
          by_cases hxe : x = e
          · exact Or.inl (Or.inr hxe)
          · exact (this.1 ⟨hxe, hx⟩).imp Or.inl id
        · rintro ((hx | rfl) | hx)
          · exact (hsub1 x hx).1
          · exact he
          · exact (hsub2 x hx).1
      · intro x hx
        simp only [List.mem_append, List.mem_singleton] at hx
        rcases hx with hx | rfl
        · exact i3 x hx
        · exact fun hm => (hsub2 _ hm).2 rfl
      · rw [List.pairwise_append]
        refine ⟨i4, by simp, fun a ha b hb => ?_⟩
        rw [List.mem_singleton] at hb
        rw [hb]; exact hall a (hsub1 a ha).1 (hsub1 a ha).2
      · intro a ha b hb
        simp only [List.mem_append, List.mem_singleton] at ha
        rcases ha with ha | rfl
        · exact i5 a ha b hb
        · exact hall b (hsub2 b hb).1 (hsub2 b hb).2
      · rw [← i7]
        exact ⟨fun hD => hD.erase_greatest v.order e he hall, fun hD => .greatest E e he hall hD⟩
      · intro hn
        apply i8
        intro m hm hle
        have hme := Finset.mem_erase.1 hm
        refine hn m hme.2 (fun x hx hne => ?_)
        by_cases hxe : x = e
        · rw [hxe]; exact hall m hme.2 hme.1
        · exact hle x (Finset.mem_erase.2 ⟨hxe, hx⟩) hne
    · rename_i hno
      refine ⟨by simp, by simp, by simp, by simp, by simp, ?_, Iff.rfl, id⟩
      intro e he hall
      exact hno e ((ord_singleton it _ _ e).2 (greatest_futureInf v he hall))

/-! ## The recursion -/

/-- what `__perm_jointsubset` does for a connected set -/
def JointGood (h : Heap) (joint : Finset EId → ℕ → Except Err (List EId × List ℕ × Finset EId)) (E : Finset EId) : Prop :=
  ∀ s, 1 ≤ s → (Decomposable h.Lt E → ∃ L P E', joint E s = .ok (L, P, E') ∧ TopologicalList h.Lt E L ∧ P.length < L.length) ∧
    (¬ Decomposable h.Lt E → joint E s = .error .typeError)

theorem permDisjointLoop_spec (joint : Finset EId → ℕ → Except Err (List EId × List ℕ × Finset EId)) : ∀ (ls : List (Finset EId)),
    (∀ E ∈ ls, JointGood h joint E) → ls.Pairwise Disjoint → ls.Pairwise (fun l l' => ∀ a ∈ l, ∀ b ∈ l', ¬ Related h.Lt a b) →
    ∀ s L0 P0, 1 ≤ s →
    ((∀ E ∈ ls, Decomposable h.Lt E) → ∃ L P, permDisjointLoop joint ls s L0 P0 = .ok (L0 ++ L, P ++ P0) ∧ L.Nodup ∧ (∀ x, x ∈ L ↔ ∃ E ∈ ls, x ∈ E) ∧
      L.Pairwise (fun a b => ¬ h.Lt b a) ∧ P.length ≤ L.length ∧ (ls ≠ [] → P.length < L.length)) ∧
    ((∃ E ∈ ls, ¬ Decomposable h.Lt E) → permDisjointLoop joint ls s L0 P0 = .error .typeError) := by
  intro ls
  induction ls with
  | nil =>
    intro _ _ _ s L0 P0 _
    exact ⟨fun _ => ⟨[], [], by simp [permDisjointLoop]⟩, by simp⟩
  | cons E ls ih =>
    intro hg hdis hun s L0 P0 hs
    obtain ⟨d1, d2⟩ := List.pairwise_cons.1 hdis
    obtain ⟨u1, u2⟩ := List.pairwise_cons.1 hun
    obtain ⟨g1, g2⟩ := hg E (by simp) s hs
    rw [permDisjointLoop]
    by_cases hE : Decomposable h.Lt E
    · obtain ⟨L1, P1, E', e1, ⟨t1, t2, t3⟩, hlen⟩ := g1 hE
      simp only [e1]
      obtain ⟨i1, i2⟩ := ih (fun E hE => hg E (by simp [hE])) d2 u2 (s + E'.card) (L0 ++ L1) (P1 ++ P0) (by omega)
      refine ⟨fun hall => ?_, fun ⟨F, hF, hn⟩ => ?_⟩
      · obtain ⟨L, P, e2, n1, n2, n3, n4, n5⟩ := i1 (fun F hF => hall F (by simp [hF]))
        refine ⟨L1 ++ L, P ++ P1, by rw [e2]; simp, ?_, ?_, ?_, ?_, ?_⟩
        · rw [List.nodup_append]
          refine ⟨t1, n1, fun a ha b hb hab => ?_⟩
          obtain ⟨F, hF, hbF⟩ := (n2 b).1 hb
          exact Finset.disjoint_left.1 (d1 F hF) ((t2 a).1 ha) (hab ▸ hbF)
        · intro x
          rw [List.mem_append, t2, n2]
          simp
        · rw [List.pairwise_append]
          refine ⟨t3, n3, fun a ha b hb hab => ?_⟩
          obtain ⟨F, hF, hbF⟩ := (n2 b).1 hb
          exact u1 F hF a ((t2 a).1 ha) b hbF (Or.inr hab)
        · simp only [List.length_append]; omega
        · intro _; simp only [List.length_append]; omega
      · rcases List.mem_cons.1 hF with rfl | hF
        · exact absurd hE hn
        · exact i2 ⟨F, hF, hn⟩
    · rw [g2 hE]
      exact ⟨fun hall => absurd (hall E (by simp)) hE, fun _ => rfl⟩

theorem permDisjoint_spec (joint : Finset EId → ℕ → Except Err (List EId × List ℕ × Finset EId)) {E : Finset EId} {ls : List (Finset EId)}
    (sp : ComponentsSpec h.Lt E ls) (hg : ∀ l ∈ ls, JointGood h joint l) (s : ℕ) (hs : 1 ≤ s) :
    ((∀ l ∈ ls, Decomposable h.Lt l) → ∃ L P, permDisjoint joint ls s = .ok (L, P) ∧ TopologicalList h.Lt E L ∧ P.length ≤ L.length ∧ (ls ≠ [] → P.length < L.length)) ∧
    ((∃ l ∈ ls, ¬ Decomposable h.Lt l) → permDisjoint joint ls s = .error .typeError) := by
  set ls' := ls.mergeSort (fun a b => decide (b.card ≤ a.card)) with hls
  have hp : ls'.Perm ls := List.mergeSort_perm _ _
  have hdis : ls'.Pairwise Disjoint := (List.Perm.pairwise_iff (fun hr => hr.symm) hp).2 sp.disjoint
  have hun : ls'.Pairwise (fun l l' => ∀ a ∈ l, ∀ b ∈ l', ¬ Related h.Lt a b) :=
    (List.Perm.pairwise_iff (fun hr a ha b hb hab => hr b hb a ha hab.symm) hp).2 sp.unrelated
  obtain ⟨c1, c2⟩ := permDisjointLoop_spec joint ls' (fun E hE => hg E (hp.mem_iff.1 hE)) hdis hun s [] [] hs
  unfold permDisjoint
  rw [← hls]
  refine ⟨fun hall => ?_, fun ⟨l, hl, hn⟩ => c2 ⟨l, hp.mem_iff.2 hl, hn⟩⟩
  obtain ⟨L, P, e, n1, n2, n3, n4, n5⟩ := c1 (fun l hl => hall l (hp.mem_iff.1 hl))
  refine ⟨L, P, by simpa using e, ⟨n1, fun x => ?_, n3⟩, n4, fun hne => n5 (fun h0 => hne ?_)⟩
  · rw [n2, sp.cover]
    exact ⟨fun ⟨l, hl, hx⟩ => ⟨l, hp.mem_iff.1 hl, hx⟩, fun ⟨l, hl, hx⟩ => ⟨l, hp.mem_iff.2 hl, hx⟩⟩
  · rw [h0] at hp; exact (List.nil_perm.1 hp)

set_option maxHeartbeats 1000000 in
theorem permJoint_spec (it : Iter) (v : h.Valid) (C : Finset EId) : ∀ (fuel : ℕ) (E : Finset EId), E.Nonempty → E.card ≤ fuel →
    (∀ a ∈ E, ∀ b ∈ E, Connected h.Lt E a b) → JointGood h (h.permJoint it C fuel) E := by
  intro fuel
  induction fuel with
  | zero => intro E hne hc; exact absurd (Finset.card_pos.2 hne) (by omega)
  | succ fuel ih =>
    intro E hne hcard hconn s hs
    rw [permJoint]
    obtain ⟨a1, a2, a3, a4, a5, a6, a7⟩ := stripPast_spec it v E.card E le_rfl
    set st := h.stripPast it E.card E with hst
    obtain ⟨b1, b2, b3, b4, b5, b6, b7, b8⟩ := stripFuture_spec it v st.2.card st.2 le_rfl
    set en := h.stripFuture it st.2.card st.2 with hen
    obtain ⟨central, e1, sp⟩ := (C35_disjoint it v C en.2).1
    simp only [e1]
    have hDD : Decomposable h.Lt E ↔ Decomposable h.Lt en.2 := a7.trans b7
    have hnl := b8 a6
    have hcount : E.card = st.1.length + en.1.length + en.2.card := by
      have x1 : E = st.1.toFinset ∪ st.2 := by ext x; simp [a2 x]
      have x2 : st.2 = en.1.toFinset ∪ en.2 := by ext x; simp [b2 x]
      have y1 : E.card = st.1.length + st.2.card := by
        rw [x1, Finset.card_union_of_disjoint, List.toFinset_card_of_nodup a1]
        rw [Finset.disjoint_left]; intro x hx; exact a3 x (by simpa using hx)
      have y2 : st.2.card = en.1.length + en.2.card := by
        conv_lhs => rw [x2]
        rw [Finset.card_union_of_disjoint, List.toFinset_card_of_nodup b1]
        rw [Finset.disjoint_left]; intro x hx; exact b3 x (by simpa using hx)
      omega
    -- a connected central part cannot be taken apart
    by_cases hc1 : central.length = 1
    · rw [if_pos hc1]
      obtain ⟨l, rfl⟩ := List.length_eq_one_iff.1 hc1
      have hl : l = en.2 := by
        ext x; rw [sp.cover]; simp
      have hlne := sp.nonempty l (by simp)
      have hnD : ¬ Decomposable h.Lt en.2 := by
        intro hD
        rw [← hl] at hD
        cases hD with
        | empty => simp at hlne
        | least _ e he hall _ => rw [hl] at he hall; exact hnl e he hall
        | greatest _ e he hall _ => rw [hl] at he hall; exact b6 e he hall
        | union _ ls' sp' h2 _ =>
          rw [hl] at sp'
          obtain ⟨x, hx, y, hy, hxy⟩ := sp'.ne_of_two h2
          have k1 := sp'.same sp hx
          have k2 := sp'.same sp hy
          rw [List.mem_singleton] at k1 k2
          exact hxy (k1.trans k2.symm)
      have hlay : h.permLayered en.2 = .error .typeError := by
        unfold permLayered
        rw [if_neg]
        rw [← hl]
        exact (((C23_bounding v l).2.2 hlne).1).ne_empty
      rw [hlay]
      exact ⟨fun hD => absurd (hDD.1 hD) hnD, fun _ => rfl⟩
    · rw [if_neg hc1]
      have hlenc : ∀ l ∈ central, l.card ≤ fuel := by
        intro l hl
        have hsub : l ⊆ en.2 := fun x hx => (sp.cover x).2 ⟨l, hl, hx⟩
        have hle := Finset.card_le_card hsub
        by_contra hgt
        have h2 : l.card = E.card := by omega
        have h3 : en.2.card = E.card := by omega
        have h4 : l = en.2 := Finset.eq_of_subset_of_card_le hsub (by omega)
        -- then the list is a single component
        apply hc1
        match central, sp, hl with
        | [a], _, _ => rfl
        | a :: b :: t, sp, hl =>
          obtain ⟨x, hx, y, hy, hxy⟩ := sp.ne_of_two (by simp)
          have key : ∀ m ∈ a :: b :: t, m = l := by
            intro m hm
            by_contra hml
            obtain ⟨z, hz⟩ := sp.nonempty m hm
            have hzl : z ∈ l := h4 ▸ (sp.cover z).2 ⟨m, hm, hz⟩
            have : m = l := by ext w; rw [sp.mem_iff hm hz, sp.mem_iff hl hzl]
            exact hml this
          exact absurd ((key x hx).trans (key y hy).symm) hxy
      obtain ⟨p1, p2⟩ := permDisjoint_spec (h.permJoint it C fuel) sp
        (fun l hl => ih l (sp.nonempty l hl) (hlenc l hl) (sp.connected l hl)) (s + st.1.length) (by omega)
      have hiff : Decomposable h.Lt en.2 ↔ ∀ l ∈ central, Decomposable h.Lt l := by
        refine ⟨fun hD => hD.components sp, fun hall => ?_⟩
        rcases Nat.lt_or_ge central.length 2 with hlt | hge
        · have : central = [] := List.length_eq_zero_iff.1 (by omega)
          have : en.2 = ∅ := by
            ext x; rw [sp.cover, this]; simp
          rw [this]; exact .empty
        · exact .union _ central sp hge hall
      refine ⟨fun hD => ?_, fun hn => ?_⟩
      · obtain ⟨L, P, e2, ⟨n1, n2, n3⟩, n4, n5⟩ := p1 (hiff.1 (hDD.1 hD))
        simp only [e2]
        have hL : L.length = en.2.card := by
          rw [← List.toFinset_card_of_nodup n1]
          congr 1
          ext x; simp [n2]
        have st_in : ∀ x ∈ st.1, x ∈ E := fun x hx => (a2 x).2 (Or.inl hx)
        refine ⟨_, _, _, rfl, ⟨?_, ?_, ?_⟩, ?_⟩
        · rw [List.nodup_append, List.nodup_append]
          refine ⟨⟨a1, n1, fun x hx y hy hxy => ?_⟩, b1, fun x hx y hy hxy => ?_⟩
          · subst hxy; exact a3 x hx ((b2 x).2 (Or.inr ((n2 x).1 hy)))
          · subst hxy
            rcases List.mem_append.1 hx with hx | hx
            · exact a3 x hx ((b2 x).2 (Or.inl hy))
            · exact b3 x hy ((n2 x).1 hx)
        · intro x
          simp only [List.mem_append, n2]
          rw [a2 x, b2 x]; tauto
        · have noback : ∀ {x y}, h.Lt x y → ¬ h.Lt y x := fun hxy hyx => v.order.irrefl _ (v.order.trans _ _ _ hxy hyx)
          rw [List.pairwise_append, List.pairwise_append]
          refine ⟨⟨a4.imp (fun hxy => noback hxy), n3, fun x hx y hy => ?_⟩, b4.imp (fun hxy => noback hxy), fun x hx y hy => ?_⟩
          · exact noback (a5 x hx y ((b2 y).2 (Or.inr ((n2 y).1 hy))))
          · rcases List.mem_append.1 hx with hx | hx
            · exact noback (a5 x hx y ((b2 y).2 (Or.inl hy)))
            · exact noback (b5 y hy x ((n2 x).1 hx))
        · simp only [List.length_append, pyRange, List.length_map, List.length_range]
          have hpos : 0 < E.card := Finset.card_pos.2 hne
          by_cases hz : st.1.length = 0 ∧ en.1.length = 0
          · have hcn : central ≠ [] := by
              intro h0
              have : en.2 = ∅ := by ext x; rw [sp.cover, h0]; simp
              rw [this] at hcount; simp at hcount; omega
            have := n5 hcn
            omega
          · omega
      · have : ∃ l ∈ central, ¬ Decomposable h.Lt l := by
          by_contra hc
          push Not at hc
          exact hn (hDD.2 (hiff.2 hc))
        rw [p2 this]

/-- **C59, refuted.** In every consistent state and for every non-empty set of events: `permuted` never returns a permutation of the numbers of the events.  If the set can be taken apart by least and greatest events and unconnected
parts, it returns a list `L` of all events of the set without repetition, no event after one of its future events, but the list `P` has fewer entries; otherwise it raises TypeError. -/
theorem C59_refuted (it : Iter) (v : h.Valid) (C : Finset EId) (E : Finset EId) (hne : E.Nonempty) :
    (Decomposable h.Lt E → ∃ L P, h.permuted it C (some E) = .ok (L, P) ∧ TopologicalList h.Lt E L ∧ P.length < E.card) ∧
    (¬ Decomposable h.Lt E → h.permuted it C (some E) = .error .typeError) := by
  obtain ⟨ls, e, sp⟩ := (C35_disjoint it v C E).1
  have hls : ls ≠ [] := by
    rintro rfl
    obtain ⟨x, hx⟩ := hne
    simpa using (sp.cover x).1 hx
  obtain ⟨p1, p2⟩ := permDisjoint_spec (h.permJoint it C (E.card + 1)) sp (fun l hl => permJoint_spec it v C _ l (sp.nonempty l hl)
    (by have := Finset.card_le_card (fun x hx => (sp.cover x).2 ⟨l, hl, hx⟩ : l ⊆ E); omega) (sp.connected l hl)) 1 le_rfl
  unfold permuted
  simp only [Option.getD_some, e]
  refine ⟨fun hD => ?_, fun hn => p2 ?_⟩
  · obtain ⟨L, P, e1, t, -, h5⟩ := p1 (hD.components sp)
    refine ⟨L, P, e1, t, ?_⟩
    have hL : L.length = E.card := by
      rw [← List.toFinset_card_of_nodup t.1]
      congr 1
      ext x; simp [t.2.1]
    rw [← hL]; exact h5 hls
  · by_contra hc
    push Not at hc
    apply hn
    rcases Nat.lt_or_ge ls.length 2 with hlt | hge
    · obtain ⟨l, rfl⟩ := List.length_eq_one_iff.1 (by have := List.length_pos_iff.2 hls; omega : ls.length = 1)
      have : l = E := by ext x; rw [sp.cover]; simp
      rw [← this]; exact hc l (by simp)
    · exact .union E ls sp hge hc

/-- The whole causet is the set of all its events, and the empty set gives two empty lists. -/
theorem C59_default (it : Iter) (v : h.Valid) (C : Finset EId) : h.permuted it C none = h.permuted it C (some C) ∧ h.permuted it C (some ∅) = .ok ([], []) := by
  refine ⟨rfl, ?_⟩
  obtain ⟨ls, e, sp⟩ := (C35_disjoint it v C ∅).1
  have hls : ls = [] := by
    rcases ls with _ | ⟨l, t⟩
    · rfl
    · obtain ⟨x, hx⟩ := sp.nonempty l (by simp)
      exact absurd ((sp.cover x).2 ⟨l, by simp, hx⟩) (by simp)
  subst hls
  unfold permuted
  simp only [Option.getD_some, e]
  simp [permDisjoint, permDisjointLoop]

/-- 0, 1 < 2 and 1 < 3: the order with the shape of the letter N -/
def exN : Heap :=
  let h1 := (Heap.empty.newEvent Iter.asc (some (.int 1)) [] []).2
  let h2 := (h1.newEvent Iter.asc (some (.int 2)) [] []).2
  let h3 := (h2.newEvent Iter.asc (some (.int 3)) [0, 1] []).2
  (h3.newEvent Iter.asc (some (.int 4)) [1] []).2

theorem exN_reach : LinkReachable exN := by
  refine .new _ _ _ _ _ (.new _ _ _ _ _ (.new _ _ _ _ _ (.new _ _ _ _ _ .start ?_ ?_ ?_) ?_ ?_ ?_)
    ?_ ?_ ?_) ?_ ?_ ?_ <;>
    simp [Heap.Exists, Heap.newEvent_fst] <;> decide

/-- C59: the diamond can be taken apart, ... -/
theorem exDiamond_decomposable : Decomposable exDiamond.Lt {0, 1, 2, 3} := by
  refine .least _ 0 (by decide) (by decide) ?_
  refine .greatest _ 3 (by decide) (by decide) ?_
  refine .union _ [{1}, {2}] ⟨by decide, ?_, ?_, ?_, ?_⟩ (by simp) ?_
  · intro x
    simp only [List.mem_cons, List.not_mem_nil, or_false, exists_eq_or_imp, exists_eq_left, Finset.mem_erase, Finset.mem_insert, Finset.mem_singleton]
    omega
  · simp
  · simp only [List.pairwise_cons, List.mem_singleton, forall_eq, List.not_mem_nil, false_imp_iff, implies_true, and_true, Finset.mem_singleton, List.Pairwise.nil]
    rintro (hr | hr) <;> revert hr <;> decide
  · intro l hl a ha b hb
    simp only [List.mem_cons, List.not_mem_nil, or_false] at hl
    rcases hl with rfl | rfl <;> rw [Finset.mem_singleton] at ha hb <;> subst ha <;> subst hb <;> exact Relation.ReflTransGen.refl
  · intro l hl
    simp only [List.mem_cons, List.not_mem_nil, or_false] at hl
    rcases hl with rfl | rfl
    · exact .least _ 1 (by decide) (by decide) .empty
    · exact .least _ 2 (by decide) (by decide) .empty

/-- ... so that `permuted` returns an order of its events with too few numbers; for the N it raises TypeError. -/
theorem C59_examples (it : Iter) : (∃ L P, exDiamond.permuted it {0, 1, 2, 3} none = .ok (L, P) ∧ TopologicalList exDiamond.Lt {0, 1, 2, 3} L ∧ P.length < 4) ∧
    exN.permuted it {0, 1, 2, 3} none = .error .typeError := by
  refine ⟨(C59_refuted it exDiamond_valid _ _ (by simp)).1 exDiamond_decomposable, (C59_refuted it exN_reach.valid _ {0, 1, 2, 3} (by simp)).2 ?_⟩
  intro hD
  generalize hE : ({0, 1, 2, 3} : Finset ℕ) = E at hD
  cases hD with
  | empty => exact absurd hE (by decide)
  | least _ e he hall hx => clear hx; subst hE; revert e; decide
  | greatest _ e he hall hx => clear hx; subst hE; revert e; decide
  | union _ ls sp h2 _ =>
    subst hE
    obtain ⟨l, hl, h1⟩ := (sp.cover 1).1 (by decide)
    have m2 : 2 ∈ l := sp.closed hl 1 h1 2 (by decide) (Or.inl (by decide))
    have m3 : 3 ∈ l := sp.closed hl 1 h1 3 (by decide) (Or.inl (by decide))
    have m0 : 0 ∈ l := sp.closed hl 2 m2 0 (by decide) (Or.inr (by decide))
    obtain ⟨a, ha, b, hb, hne⟩ := sp.ne_of_two h2
    have key : ∀ m ∈ ls, m = l := by
      intro m hm
      obtain ⟨x, hx⟩ := sp.nonempty m hm
      have hxE := (sp.cover x).2 ⟨m, hm, hx⟩
      have hxl : x ∈ l := by
        simp only [Finset.mem_insert, Finset.mem_singleton] at hxE
        rcases hxE with rfl | rfl | rfl | rfl <;> assumption
      ext y; rw [sp.mem_iff hm hx, sp.mem_iff hl hxl]
    exact hne ((key a ha).trans (key b hb).symm)

end Causets
