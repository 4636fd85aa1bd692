import Verif.Lemmas.Iso
import Verif.Props.Perimetral

/-! # C109 — Isomorphic causets cannot be told apart; every query reads the order of a closed set of events only -/

namespace Causets
open Heap

variable {h h' : Heap} {U : Finset EId} {f : EId → EId}

namespace CausalIso

variable (φ : CausalIso h.Lt h'.Lt U f)
include φ

theorem path_back {a b : EId} (ha : a ∈ U) (hb : b ∈ U) {q : List EId} (hq : LinkPath h'.Lt (f a) (f b) q) : ∃ p, LinkPath h.Lt a b p ∧ q = p.map f := by
  have ha' := Finset.mem_image_of_mem f ha
  have hp := φ.symm.path ha' hq
  rw [φ.inv_apply ha, φ.inv_apply hb] at hp
  refine ⟨_, hp, ?_⟩
  rw [List.map_map]
  have hs := φ.symm.path_sub ha' hq
  conv_lhs => rw [← List.map_id q]
  exact List.map_congr_left fun x hx => ((φ.inv_mem (hs x hx)).2).symm

theorem path_map_iff {a b : EId} (ha : a ∈ U) (hb : b ∈ U) {p : List EId} (hp : ∀ x ∈ p, x ∈ U) : LinkPath h'.Lt (f a) (f b) (p.map f) ↔ LinkPath h.Lt a b p := by
  constructor
  · intro hq
    obtain ⟨p', hp', e⟩ := φ.path_back ha hb hq
    have hs := φ.path_sub ha hp'
    have : p = p' := by
      clear hq hp'
      induction p generalizing p' with
      | nil => cases p' with
        | nil => rfl
        | cons _ _ => simp at e
      | cons x xs ih => cases p' with
        | nil => simp at e
        | cons y ys =>
          simp only [List.map_cons, List.cons.injEq] at e
          rw [φ.inj x (hp x (by simp)) y (hs y (by simp)) e.1, ih (fun z hz => hp z (by simp [hz])) ys e.2 (fun z hz => hs z (by simp [hz]))]
    rw [this]; exact hp'
  · exact φ.path ha

theorem isRank {a b : EId} (ha : a ∈ U) (hb : b ∈ U) (r : ℕ∞) : IsRank h'.Lt (f a) (f b) r ↔ IsRank h.Lt a b r := by
  have he : f a = f b ↔ a = b := ⟨φ.inj a ha b hb, fun hx => by rw [hx]⟩
  have hset : {m : ℕ | ∃ p, LinkPath h'.Lt (f a) (f b) p ∧ p.length = m + 1} = {m | ∃ p, LinkPath h.Lt a b p ∧ p.length = m + 1} := by
    ext m
    constructor
    · rintro ⟨q, hq, hl⟩
      obtain ⟨p, hp, rfl⟩ := φ.path_back ha hb hq
      exact ⟨p, hp, by simpa using hl⟩
    · rintro ⟨p, hp, hl⟩
      exact ⟨p.map f, φ.path ha hp, by simpa using hl⟩
  unfold IsRank
  rw [he, ← φ.iff a ha b hb, hset]

theorem isRankUp {s : Finset EId} (hs : s ⊆ U) {x : EId} (hx : x ∈ U) (n : ℤ) : IsRankUp h' (s.image f) (f x) n ↔ IsRankUp h s x n := by
  have hset : {k : ℤ | ∃ a ∈ s.image f, ∃ m : ℕ, h'.Lt a (f x) ∧ IsRank h'.Lt a (f x) m ∧ k = m} = {k : ℤ | ∃ a ∈ s, ∃ m : ℕ, h.Lt a x ∧ IsRank h.Lt a x m ∧ k = m} := by
    ext k
    constructor
    · rintro ⟨_, ha', m, h1, h2, h3⟩
      obtain ⟨a, ha, rfl⟩ := Finset.mem_image.1 ha'
      exact ⟨a, ha, m, (φ.iff a (hs ha) x hx).2 h1, (φ.isRank (hs ha) hx m).1 h2, h3⟩
    · rintro ⟨a, ha, m, h1, h2, h3⟩
      exact ⟨f a, Finset.mem_image_of_mem f ha, m, (φ.iff a (hs ha) x hx).1 h1, (φ.isRank (hs ha) hx m).2 h2, h3⟩
  have hall : (∀ a ∈ s.image f, ¬h'.Lt a (f x)) ↔ ∀ a ∈ s, ¬h.Lt a x := by
    rw [Finset.forall_mem_image]
    exact forall₂_congr fun a ha => by rw [φ.iff a (hs ha) x hx]
  unfold IsRankUp
  rw [hset, hall]

theorem isRankDown {s : Finset EId} (hs : s ⊆ U) {x : EId} (hx : x ∈ U) (n : ℤ) : IsRankDown h' (s.image f) (f x) n ↔ IsRankDown h s x n := by
  have hset : {k : ℤ | ∃ b ∈ s.image f, ∃ m : ℕ, h'.Lt (f x) b ∧ IsRank h'.Lt (f x) b m ∧ k = m} = {k : ℤ | ∃ b ∈ s, ∃ m : ℕ, h.Lt x b ∧ IsRank h.Lt x b m ∧ k = m} := by
    ext k
    constructor
    · rintro ⟨_, ha', m, h1, h2, h3⟩
      obtain ⟨a, ha, rfl⟩ := Finset.mem_image.1 ha'
      exact ⟨a, ha, m, (φ.iff x hx a (hs ha)).2 h1, (φ.isRank hx (hs ha) m).1 h2, h3⟩
    · rintro ⟨a, ha, m, h1, h2, h3⟩
      exact ⟨f a, Finset.mem_image_of_mem f ha, m, (φ.iff x hx a (hs ha)).1 h1, (φ.isRank hx (hs ha) m).2 h2, h3⟩
  have hall : (∀ b ∈ s.image f, ¬h'.Lt (f x) b) ↔ ∀ b ∈ s, ¬h.Lt x b := by
    rw [Finset.forall_mem_image]
    exact forall₂_congr fun a ha => by rw [φ.iff x hx a (hs ha)]
  unfold IsRankDown
  rw [hset, hall]

end CausalIso

/-- the state without any computed links -/
def Heap.forget (h : Heap) : Heap := { h with lprec := fun _ => none, lsucc := fun _ => none }

theorem forget_sameOrder (h : Heap) : h.SameOrder h.forget := ⟨rfl, rfl, rfl, rfl⟩

theorem forget_linksExact (h : Heap) : h.forget.LinksExact := by
  constructor <;> simp [Heap.forget]

theorem map_injOn_list (hinj : ∀ a ∈ U, ∀ b ∈ U, f a = f b → a = b) : ∀ {p q : List EId}, (∀ x ∈ p, x ∈ U) → (∀ x ∈ q, x ∈ U) → p.map f = q.map f → p = q
  | [], [], _, _, _ => rfl
  | [], _ :: _, _, _, e => by simp at e
  | _ :: _, [], _, _, e => by simp at e
  | x :: xs, y :: ys, hp, hq, e => by
    simp only [List.map_cons, List.cons.injEq] at e
    rw [hinj x (hp x (by simp)) y (hq y (by simp)) e.1, map_injOn_list hinj (fun z hz => hp z (by simp [hz])) (fun z hz => hq z (by simp [hz])) e.2]

theorem ComponentsSpec.perm {lt : ℕ → ℕ → Prop} {s : Finset ℕ} {ls ls' : List (Finset ℕ)} (sp : ComponentsSpec lt s ls) (sp' : ComponentsSpec lt s ls') : ls.Perm ls' := by
  have key : ∀ ls ls', ComponentsSpec lt s ls → ComponentsSpec lt s ls' → ∀ l ∈ ls, l ∈ ls' := by
    intro ls ls' sp sp' l hl
    obtain ⟨x, hx⟩ := sp.nonempty l hl
    obtain ⟨l', hl', hx'⟩ := (sp'.cover x).1 ((sp.cover x).2 ⟨l, hl, hx⟩)
    have sub : ∀ (ks : List (Finset ℕ)), ComponentsSpec lt s ks → ∀ k ∈ ks, ∀ m : Finset ℕ, m ⊆ s → (∀ b ∈ m, Connected lt m x b) → x ∈ k → x ∈ m → m ⊆ k := by
      intro ks spk k hk m hms hm hxk hxm y hy
      have hc := hm y hy
      unfold Connected at hc
      induction hc with
      | refl => exact hxk
      | tail _ st ih =>
        obtain ⟨h1, h2, h3⟩ := st
        have hy1 := ih h1
        obtain ⟨k2, hk2, hy2⟩ := (spk.cover _).1 (hms h2)
        by_cases hkk : k = k2
        · rw [hkk]; exact hy2
        · have hp := spk.unrelated
          rw [List.pairwise_iff_getElem] at hp
          obtain ⟨i, hi, ei⟩ := List.getElem_of_mem hk
          obtain ⟨j, hj, ej⟩ := List.getElem_of_mem hk2
          rcases lt_trichotomy i j with hij | hij | hij
          · exact absurd h3 (hp i j hi hj hij _ (ei ▸ hy1) _ (ej ▸ hy2))
          · subst hij; exact absurd (ei.symm.trans ej) hkk
          · exact absurd h3.symm (hp j i hj hi hij _ (ej ▸ hy2) _ (ei ▸ hy1))
    have e : l = l' := Finset.Subset.antisymm
      (sub ls' sp' l' hl' l (fun y hy => (sp.cover y).2 ⟨l, hl, hy⟩) (sp.connected l hl x hx) hx' hx)
      (sub ls sp l hl l' (fun y hy => (sp'.cover y).2 ⟨l', hl', hy⟩) (sp'.connected l' hl' x hx') hx hx')
    rw [e]; exact hl'
  have nd : ∀ ls, ComponentsSpec lt s ls → ls.Nodup := by
    intro ls sp
    refine List.Pairwise.imp_of_mem (fun {a b} ha _ hab => ?_) sp.disjoint
    rintro rfl
    obtain ⟨x, hx⟩ := sp.nonempty a ha
    exact Finset.disjoint_left.1 hab hx hx
  exact (List.perm_ext_iff_of_nodup (nd ls sp) (nd ls' sp')).2 fun l => ⟨key ls ls' sp sp' l, key ls' ls sp' sp l⟩

/-- **Specification.** Asked in any two states that have the orders of `h` and `h'`, whatever links have been computed in them, the queries have answers that correspond. -/
def Heap.Corresponds (h h' : Heap) {α β : Type} (m : StateM Heap α) (m' : StateM Heap β) (T : α → β → Prop) : Prop :=
  ∀ g g' : Heap, h.SameOrder g → g.LinksExact → h'.SameOrder g' → g'.LinksExact → T (m.run g).1 (m'.run g').1

theorem corresponds_of {α β : Type} {m : StateM Heap α} {m' : StateM Heap β} {P : α → Prop} {P' : β → Prop} {T : α → β → Prop} (hm : h.AnswersWith m P) (hm' : h'.AnswersWith m' P')
    (hT : ∀ x y, P x → P' y → T x y) : h.Corresponds h' m m' T :=
  fun g g' so lx so' lx' => hT _ _ (hm g so lx).1 (hm' g' so' lx').1

theorem corresponds_answers {α β : Type} {m : StateM Heap α} {m' : StateM Heap β} {x : α} {y : β} {T : α → β → Prop} (hm : h.Answers m x) (hm' : h'.Answers m' y) (hT : T x y) :
    h.Corresponds h' m m' T := corresponds_of hm hm' fun _ _ e e' => by rw [e, e']; exact hT

/-! ## The theorems

`f` is an isomorphism between the causally closed sets of events `U` (in the first state) and `f(U)` (in the second): the two states may have been built in completely different ways and contain any number of
other events. -/

section
variable (φ : CausalIso h.Lt h'.Lt U f) (v : h.Valid) (v' : h'.Valid)
include φ v v'

/-- **C109, events.** All comparisons, cones, spacelike regions, intervals and their cardinalities of corresponding events correspond. -/
theorem C109_events {a b : EId} (ha : a ∈ U) (hb : b ∈ U) :
    (h'.lt (f a) (f b) = h.lt a b ∧ h'.le (f a) (f b) = h.le a b ∧ h'.gt (f a) (f b) = h.gt a b ∧ h'.ge (f a) (f b) = h.ge a b ∧
      h'.isCausalTo (f a) (f b) = h.isCausalTo a b ∧ h'.isSpacelikeTo (f a) (f b) = h.isSpacelikeTo a b) ∧
    (h'.past (f a) = (h.past a).image f ∧ h'.future (f a) = (h.future a).image f ∧ h'.cone (f a) = (h.cone a).image f ∧
      h'.presentOrPast (f a) = (h.presentOrPast a).image f ∧ h'.presentOrFuture (f a) = (h.presentOrFuture a).image f) ∧
    (h'.pastCard (f a) = h.pastCard a ∧ h'.futureCard (f a) = h.futureCard a ∧ h'.coneCard (f a) = h.coneCard a) ∧
    (∀ s ⊆ U, h'.spacelike (f a) (s.image f) = (h.spacelike a s).image f ∧ h'.spacelikeCard (f a) (s.image f) = h.spacelikeCard a s) ∧
    (∀ ib, h'.interval (f a) (f b) ib = (h.interval a b ib).image f ∧ h'.intervalCard (f a) (f b) ib = h.intervalCard a b ib) :=
  ⟨⟨φ.lt v v' ha hb, φ.le v v' ha hb, φ.gt v v' ha hb, φ.ge v v' ha hb, φ.isCausalTo v v' ha hb, φ.isSpacelikeTo v v' ha hb⟩,
    ⟨φ.past v v' ha, φ.future v v' ha, φ.cone v v' ha, φ.presentOrPast v v' ha, φ.presentOrFuture v v' ha⟩,
    ⟨φ.pastCard v v' ha, φ.futureCard v v' ha, φ.coneCard v v' ha⟩,
    fun s hs => ⟨φ.spacelike v v' ha hs, φ.spacelikeCard v v' ha hs⟩, fun ib => ⟨φ.interval v v' ha hb ib, φ.intervalCard v v' ha hb ib⟩⟩

/-- **C109, sets.** Likewise the causet functions on sets: unions of cones, the spacelike region of a set, chains and antichains, infinities. -/
theorem C109_sets (it it' : Iter) {C s : Finset EId} (hC : C ⊆ U) (hs : s ⊆ U) :
    (∀ p i, h'.pastOf it' (s.image f) p i = (h.pastOf it s p i).image f ∧ h'.futureOf it' (s.image f) p i = (h.futureOf it s p i).image f ∧ h'.coneOf it' (s.image f) p i = (h.coneOf it s p i).image f) ∧
    h'.spacelikeTo it' (C.image f) (s.image f) = (h.spacelikeTo it C s).image f ∧
    (h'.isChain it' (C.image f) (some (s.image f)) = h.isChain it C (some s) ∧ h'.isChain it' (C.image f) none = h.isChain it C none ∧
      h'.isAntichain it' (C.image f) (some (s.image f)) = h.isAntichain it C (some s) ∧ h'.isAntichain it' (C.image f) none = h.isAntichain it C none) ∧
    (h'.pastInf (C.image f) = (h.pastInf C).image f ∧ h'.futureInf (C.image f) = (h.futureInf C).image f ∧ h'.pastInfOf (s.image f) = (h.pastInfOf s).image f ∧
      h'.futureInfOf (s.image f) = (h.futureInfOf s).image f) ∧
    (h'.pastInfCard it' (C.image f) = h.pastInfCard it C ∧ h'.futureInfCard it' (C.image f) = h.futureInfCard it C ∧ h'.pastInfCardOf it' (s.image f) = h.pastInfCardOf it s ∧
      h'.futureInfCardOf it' (s.image f) = h.futureInfCardOf it s) := by
  have o1 : ∀ t ∈ (some s : Option (Finset EId)), t ⊆ U := by rintro _ ⟨⟩; exact hs
  have o0 : ∀ t ∈ (none : Option (Finset EId)), t ⊆ U := by rintro _ ⟨⟩
  refine ⟨fun p i => ⟨φ.pastOf v v' it it' hs p i, φ.futureOf v v' it it' hs p i, φ.coneOf v v' it it' hs p i⟩, φ.spacelikeTo v v' it it' hC hs,
    ⟨φ.isChain v v' it it' hC (some s) o1, φ.isChain v v' it it' hC none o0, φ.isAntichain v v' it it' hC (some s) o1, φ.isAntichain v v' it it' hC none o0⟩,
    ⟨φ.pastInf v v' hC, φ.futureInf v v' hC, φ.pastInfOf v v' hs, φ.futureInfOf v v' hs⟩, ?_⟩
  obtain ⟨a1, a2, -, -⟩ := C23_cards it h C
  obtain ⟨-, -, a3, a4⟩ := C23_cards it h s
  obtain ⟨b1, b2, -, -⟩ := C23_cards it' h' (C.image f)
  obtain ⟨-, -, b3, b4⟩ := C23_cards it' h' (s.image f)
  rw [a1, a2, a3, a4, b1, b2, b3, b4, φ.pastInf v v' hC, φ.futureInf v v' hC, φ.pastInfOf v v' hs, φ.futureInfOf v v' hs]
  exact ⟨φ.card ((Finset.filter_subset _ _).trans hC), φ.card ((Finset.filter_subset _ _).trans hC), φ.card ((Finset.filter_subset _ _).trans hs), φ.card ((Finset.filter_subset _ _).trans hs)⟩

/-- **C109, layers.** Likewise `Layers`, `LayerNumbers` and `layered`. -/
theorem C109_layers (it it' : Iter) {C s : Finset EId} (hC : C ⊆ U) (hs : s ⊆ U) {l : List EId} (hl : ∀ x ∈ l, x ∈ U) (r : Bool) :
    (∀ first last, h'.layers it' (s.image f) first last = (h.layers it s first last).image f) ∧
    h'.layerNumbers (l.map f) r = h.layerNumbers l r ∧
    h'.layered it' (C.image f) (some (s.image f)) r = (h.layered it C (some s) r).map (List.map (fun x => x.image f)) ∧
    h'.layered it' (C.image f) none r = (h.layered it C none r).map (List.map (fun x => x.image f)) :=
  ⟨fun first last => φ.layers v v' it it' hs first last, φ.layerNumbers v v' hl r,
    φ.layered v v' it it' hC (some s) (by rintro _ ⟨⟩; exact hs) r, φ.layered v v' it it' hC none (by rintro _ ⟨⟩) r⟩

/-- **C109, distances.** Likewise the interval sizes, the distance matrix of an antichain (entry by entry the same) and the paths along antichains. -/
theorem C109_distances (it it' : Iter) {C : Finset EId} (hC : C ⊆ U) {l : List EId} (hl : ∀ x ∈ l, x ∈ U) {a b : EId} (ha : a ∈ U) (hb : b ∈ U) :
    (∀ p o : Option (Finset EId), (∀ s ∈ p, s ⊆ U) → (∀ s ∈ o, s ⊆ U) →
      h'.smallestIntervalCard (C.image f) (f a) (f b) (p.map (fun s => s.image f)) (o.map (fun s => s.image f)) = h.smallestIntervalCard C a b p o) ∧
    (∀ counting r, h'.distanceMatrix it' (C.image f) (l.map f) counting r = h.distanceMatrix it C l counting r) ∧
    (∀ depth D, h'.antipaths it' (C.image f) depth (f a) (f b) (l.map f) D = (h.antipaths it C depth a b l D).map (List.map (List.map f))) :=
  ⟨fun p o hp ho => φ.smallestIntervalCard v v' hC ha hb p o hp ho, fun c r => φ.distanceMatrix v v' it it' hC hl c r, fun d D => φ.antipaths v v' it it' hC d ha hb hl D⟩

/-- **C109, components.** `disjoint` returns corresponding components (in some order), `isDisjoint` the same answer. -/
theorem C109_components (it it' : Iter) {C : Finset EId} (hC : C ⊆ U) (o : Option (Finset EId)) (ho : ∀ s ∈ o, s ⊆ U) :
    (∃ ls ls', h.disjointSets it C o = .ok ls ∧ h'.disjointSets it' (C.image f) (o.map (fun s => s.image f)) = .ok ls' ∧ ls'.Perm (ls.map (fun x => x.image f))) ∧
    h'.isDisjoint it' (C.image f) (o.map (fun s => s.image f)) = h.isDisjoint it C o := by
  have main : ∃ ls ls', h.disjointSets it C o = .ok ls ∧ h'.disjointSets it' (C.image f) (o.map (fun s => s.image f)) = .ok ls' ∧ ls'.Perm (ls.map (fun x => x.image f)) := by
    cases o with
    | none =>
      obtain ⟨ls, e, sp⟩ := (C35_disjoint it v C ∅).2
      obtain ⟨ls', e', sp'⟩ := (C35_disjoint it' v' (C.image f) ∅).2
      exact ⟨ls, ls', e, e', sp'.perm (φ.components v v' hC sp)⟩
    | some s =>
      obtain ⟨ls, e, sp⟩ := (C35_disjoint it v C s).1
      obtain ⟨ls', e', sp'⟩ := (C35_disjoint it' v' (C.image f) (s.image f)).1
      exact ⟨ls, ls', e, e', sp'.perm (φ.components v v' (ho s rfl) sp)⟩
  refine ⟨main, ?_⟩
  obtain ⟨ls, ls', e, e', p⟩ := main
  unfold isDisjoint
  rw [e, e']
  simp only [p.length_eq, List.length_map]

/-- **C109, causets.** `Causet(S)` of corresponding sets are corresponding causets. -/
theorem C109_causets (it it' : Iter) {s : Finset EId} (hs : s ⊆ U) (hx : ∀ e ∈ s, h.Exists e) (hx' : ∀ e ∈ s, h'.Exists (f e)) :
    ∃ C, h.causetInit it s = .ok C ∧ C ⊆ U ∧ h'.causetInit it' (s.image f) = .ok (C.image f) := by
  obtain ⟨C, e, h1, h2, h3⟩ := C09_causet_closure it v s hx
  obtain ⟨C', e', h1', h2', h3'⟩ := C09_causet_closure it' v' (s.image f) (by rw [Finset.forall_mem_image]; exact hx')
  have hCU : C ⊆ U := h3 U hs φ.closed
  have hCU' : C' ⊆ U.image f := h3' _ (Finset.image_subset_image hs) φ.closed'
  refine ⟨C, e, hCU, ?_⟩
  rw [e', Finset.Subset.antisymm (h3' _ (Finset.image_subset_image h1) ?_) ?_]
  · intro x hx y hy
    obtain ⟨a, ha, rfl⟩ := Finset.mem_image.1 hx
    have hyU := φ.closed' _ (Finset.mem_image_of_mem f (hCU ha)) y hy
    obtain ⟨b, hb, rfl⟩ := Finset.mem_image.1 hyU
    exact Finset.mem_image_of_mem f (h2 a ha b ((φ.related (hCU ha) hb).1 hy))
  · have hback := h3 (C'.image (CausalIso.inv U f)) ?_ ?_
    · intro x hx
      obtain ⟨a, ha, rfl⟩ := Finset.mem_image.1 hx
      obtain ⟨y, hy, rfl⟩ := Finset.mem_image.1 (hback ha)
      rw [(φ.inv_mem (hCU' hy)).2]; exact hy
    · intro x hx
      exact Finset.mem_image.2 ⟨f x, h1' (Finset.mem_image_of_mem f hx), φ.inv_apply (hs hx)⟩
    · intro x hx y hy
      obtain ⟨a, ha, rfl⟩ := Finset.mem_image.1 hx
      have hyU := φ.closed _ (φ.inv_mem (hCU' ha)).1 y hy
      refine Finset.mem_image.2 ⟨f y, h2' a ha _ ?_, φ.inv_apply hyU⟩
      have := (φ.related (φ.inv_mem (hCU' ha)).1 hyU).2 hy
      rwa [(φ.inv_mem (hCU' ha)).2] at this

/-- **C109, links.** Likewise all queries about links of events. -/
theorem C109_links {a b : EId} (ha : a ∈ U) (hb : b ∈ U) :
    h.Corresponds h' (linkPast a) (linkPast (f a)) (fun x y => y = x.image f) ∧ h.Corresponds h' (linkFuture a) (linkFuture (f a)) (fun x y => y = x.image f) ∧
    h.Corresponds h' (linkCone a) (linkCone (f a)) (fun x y => y = x.image f) ∧ h.Corresponds h' (linkPastCard a) (linkPastCard (f a)) (fun x y => y = x) ∧
    h.Corresponds h' (linkFutureCard a) (linkFutureCard (f a)) (fun x y => y = x) ∧ h.Corresponds h' (linkConeCard a) (linkConeCard (f a)) (fun x y => y = x) ∧
    h.Corresponds h' (isPastLink a b) (isPastLink (f a) (f b)) (fun x y => y = x) ∧ h.Corresponds h' (isFutureLink a b) (isFutureLink (f a) (f b)) (fun x y => y = x) ∧
    h.Corresponds h' (isLinkedTo a b) (isLinkedTo (f a) (f b)) (fun x y => y = x) ∧
    h.Corresponds h' (perimetralEvents a b) (perimetralEvents (f a) (f b)) (fun x y => y = x.image f) ∧
    h.Corresponds h' (internalEvents a b) (internalEvents (f a) (f b)) (fun x y => y = x.image f) ∧
    h.Corresponds h' (perimetralEventCount a b) (perimetralEventCount (f a) (f b)) (fun x y => y = x) ∧
    h.Corresponds h' (internalEventCount a b) (internalEventCount (f a) (f b)) (fun x y => y = x) := by
  have hp : h.pastLinks a ⊆ U := (Finset.filter_subset _ _).trans (φ.past_sub v v' ha)
  have hpb : h.pastLinks b ⊆ U := (Finset.filter_subset _ _).trans (φ.past_sub v v' hb)
  have hf : h.futureLinks a ⊆ U := (Finset.filter_subset _ _).trans (φ.future_sub v v' ha)
  have ep := φ.pastLinks v v' ha
  have ef := φ.futureLinks v v' ha
  have peri : h.Corresponds h' (perimetralEvents a b) (perimetralEvents (f a) (f b)) (fun x y => y = x.image f) := by
    refine corresponds_answers (perimetralEvents_answers v a b) (perimetralEvents_answers v' (f a) (f b)) ?_
    by_cases hab : h.Lt a b
    · rw [if_pos hab, if_pos ((φ.iff a ha b hb).1 hab), ef, φ.pastLinks v v' hb, φ.inter hf hpb]
    · rw [if_neg hab, if_neg (fun hx => hab ((φ.iff a ha b hb).2 hx)), Finset.image_empty]
  have inte : h.Corresponds h' (internalEvents a b) (internalEvents (f a) (f b)) (fun x y => y = x.image f) := by
    refine corresponds_of (C27_internal v a b) (C27_internal v' (f a) (f b)) fun x y hx hy => ?_
    refine φ.of_mem (fun z hz => φ.closed a ha z (.inl ((hx z).1 hz).1.1)) (fun z hz => φ.closed' (f a) (Finset.mem_image_of_mem f ha) z (.inl ((hy z).1 hz).1.1)) fun z hz => ?_
    rw [hx, hy, ← φ.iff a ha z hz, ← φ.iff z hz b hb, φ.covers ha hz, φ.covers hz hb]
  obtain ⟨p, i, c1, c2, c3, c4, -⟩ := C27_counts v a b
  obtain ⟨p', i', d1, d2, d3, d4, -⟩ := C27_counts v' (f a) (f b)
  have s0 := forget_sameOrder h
  have s0' := forget_sameOrder h'
  have x0 := forget_linksExact h
  have x0' := forget_linksExact h'
  refine ⟨corresponds_answers (linkPast_answers v a) (linkPast_answers v' (f a)) ep, corresponds_answers (linkFuture_answers v a) (linkFuture_answers v' (f a)) ef,
    corresponds_answers (linkCone_answers v a) (linkCone_answers v' (f a)) (by rw [ep, ef, Finset.image_union]),
    corresponds_answers (linkPastCard_answers v a) (linkPastCard_answers v' (f a)) (by rw [ep, φ.card hp]), corresponds_answers (linkFutureCard_answers v a) (linkFutureCard_answers v' (f a)) (by rw [ef, φ.card hf]),
    corresponds_answers (linkConeCard_answers v a) (linkConeCard_answers v' (f a)) (by rw [ep, ef, φ.card hp, φ.card hf]),
    corresponds_answers (isPastLink_answers v a b) (isPastLink_answers v' (f a) (f b)) ?_, corresponds_answers (isFutureLink_answers v a b) (isFutureLink_answers v' (f a) (f b)) ?_,
    corresponds_answers (isLinkedTo_answers v a b) (isLinkedTo_answers v' (f a) (f b)) ?_, peri, inte, corresponds_answers c1 d1 ?_, corresponds_answers c2 d2 ?_⟩
  · rw [decide_eq_decide, ep, φ.mem_iff hb hp]
  · rw [decide_eq_decide, ef, φ.mem_iff hb hf]
  · rw [decide_eq_decide, ep, ef, ← Finset.image_union, φ.mem_iff hb (Finset.union_subset hp hf)]
  · have h1 := peri _ _ s0 x0 s0' x0'
    have h2 := (c3 _ s0 x0).1
    have h3 := (d3 _ s0' x0').1
    rw [← h2, ← h3, h1]
    refine φ.card fun z hz => ?_
    have := (C27_perimetral v a b _ s0 x0).1 z
    exact φ.closed a ha z (.inl (this.1 hz).1.1)
  · have h1 := inte _ _ s0 x0 s0' x0'
    have h2 := (c4 _ s0 x0).1
    have h3 := (d4 _ s0' x0').1
    rw [← h2, ← h3, h1, φ.card fun z hz => ?_]
    have := (C27_internal v a b _ s0 x0).1 z
    exact φ.closed a ha z (.inl (this.1 hz).1.1)

/-- **C109, ranks.** Likewise `Rank`, `Ranks` and `RankNumbers`. -/
theorem C109_ranks (it it' : Iter) {a b : EId} (ha : a ∈ U) (hb : b ∈ U) {s : Finset EId} (hs : s ⊆ U) {l : List EId} (hl : ∀ x ∈ l, x ∈ U) :
    (∀ ctx ctx' fuel fuel', h.next < fuel → h'.next < fuel' → h.Corresponds h' (rank it fuel ctx a b) (rank it' fuel' ctx' (f a) (f b)) (fun x y => y = x)) ∧
    (∀ rev, h.Corresponds h' (rankNumbers it l rev) (rankNumbers it' (l.map f) rev) (fun x y => y = x)) ∧
    (∀ first last, h.Corresponds h' (ranks it s first last) (ranks it' (s.image f) first last) (fun x y => y = x.map (fun t => t.image f))) := by
  refine ⟨fun ctx ctx' fuel fuel' hf hf' => ?_, fun rev => ?_, fun first last => ?_⟩
  · refine corresponds_of (C31_rank it v fuel (by omega) (by omega) ctx a b) (C31_rank it' v' fuel' (by omega) (by omega) ctx' (f a) (f b)) ?_
    rintro _ _ ⟨k, rfl, hk⟩ ⟨k', rfl, hk'⟩
    rw [((φ.isRank ha hb k').1 hk').unique' hk]
  · have fu : ∀ {P P' : EId → ℤ → Prop}, (∀ x m n, P x m → P x n → m = n) → ∀ (L : List EId) (ns ms : List ℤ), (∀ x ∈ L, ∀ n, P' (f x) n → P x n) → List.Forall₂ P L ns → List.Forall₂ P' (L.map f) ms → ms = ns := by
      intro P P' hP L
      induction L with
      | nil => intro ns ms _ h1 h2; cases h1; cases h2; rfl
      | cons x xs ih =>
        intro ns ms hx h1 h2
        rw [List.map_cons] at h2
        cases h1 with | cons p1 q1 => cases h2 with | cons p2 q2 => rw [hP _ _ _ (hx x (by simp) _ p2) p1, ih _ _ (fun y hy => hx y (by simp [hy])) q1 q2]
    have hls : l.toFinset ⊆ U := fun x hx => hl x (by simpa using hx)
    cases rev
    · refine corresponds_of (C32_rankNumbers it v l).1 (C32_rankNumbers it' v' (l.map f)).1 ?_
      rintro _ _ ⟨ns, rfl, h1⟩ ⟨ms, rfl, h2⟩
      rw [CausalIso.toFinset_map] at h2
      rw [fu (P := IsRankUp h l.toFinset) (fun _ _ _ => IsRankUp.unique) l ns ms (fun x hx n => (φ.isRankUp hls (hl x hx) n).1) h1 h2]
    · refine corresponds_of (C32_rankNumbers it v l).2 (C32_rankNumbers it' v' (l.map f)).2 ?_
      rintro _ _ ⟨ns, rfl, h1⟩ ⟨ms, rfl, h2⟩
      rw [CausalIso.toFinset_map] at h2
      rw [fu (P := IsRankDown h l.toFinset) (fun _ _ _ => IsRankDown.unique) l ns ms (fun x hx n => (φ.isRankDown hls (hl x hx) n).1) h1 h2]
  · refine corresponds_of (C32_ranks_any it v s first last) (C32_ranks_any it' v' (s.image f) first last) ?_
    rintro _ _ ⟨t, rfl, ht⟩ ⟨t', rfl, ht'⟩
    have inU : ∀ x, (x ∈ s ∨ ∃ b ∈ s, h.Lt x b) ∨ (x ∈ s ∨ ∃ a ∈ s, h.Lt a x) → x ∈ U := by
      rintro x ((hx | ⟨b, hb, hx⟩) | (hx | ⟨a, ha, hx⟩))
      exacts [hs hx, φ.closed b (hs hb) x (.inr hx), hs hx, φ.closed a (hs ha) x (.inl hx)]
    have inU' : ∀ x, (x ∈ s.image f ∨ ∃ b ∈ s.image f, h'.Lt x b) ∨ (x ∈ s.image f ∨ ∃ a ∈ s.image f, h'.Lt a x) → x ∈ U.image f := by
      have hs' := Finset.image_subset_image (f := f) hs
      rintro x ((hx | ⟨b, hb, hx⟩) | (hx | ⟨a, ha, hx⟩))
      exacts [hs' hx, φ.closed' b (hs' hb) x (.inr hx), hs' hx, φ.closed' a (hs' ha) x (.inl hx)]
    have : t' = t.image f := by
      refine φ.of_mem (fun x hx => ?_) (fun x hx => ?_) fun x hx => ?_
      · rcases (ht x).1 hx with ⟨-, ⟨-, h1, -⟩ | ⟨-, h1, -⟩⟩
        exacts [inU x (.inl h1), inU x (.inr h1)]
      · rcases (ht' x).1 hx with ⟨-, ⟨-, h1, -⟩ | ⟨-, h1, -⟩⟩
        exacts [inU' x (.inl h1), inU' x (.inr h1)]
      · rw [ht, ht', φ.mem_iff hx hs, φ.exists_iff v v' hs (fun e he => (φ.iff x hx e (hs he)).symm), φ.exists_iff v v' hs (fun e he => (φ.iff e (hs he) x hx).symm)]
        simp only [φ.isRankDown hs hx, φ.isRankUp hs hx]
    rw [this]; rfl

/-- **C109, paths.** `Paths` of corresponding events with any length argument: the same exception, or corresponding paths in some order. -/
theorem C109_paths (it it' : Iter) {a b : EId} (ha : a ∈ U) (hb : b ∈ U) (arg : LenArg) :
    h.Corresponds h' (paths it a b arg) (paths it' (f a) (f b) arg) (fun x y => (∃ e, x = .error e ∧ y = .error e) ∨ ∃ ps qs, x = .ok ps ∧ y = .ok qs ∧ qs.Perm (ps.map (List.map f))) := by
  have good : ∀ {R : List EId → Prop} {R' : List EId → Prop}, (∀ q, R q → LinkPath h.Lt a b q) → (∀ q, R' q → LinkPath h'.Lt (f a) (f b) q) →
      (∀ p, LinkPath h.Lt a b p → (R' (p.map f) ↔ R p)) →
      h.AnswersWith (paths it a b arg) (fun r => ∃ ps : List (List EId), r = .ok ps ∧ ps.Nodup ∧ ∀ q, q ∈ ps ↔ R q) →
      h'.AnswersWith (paths it' (f a) (f b) arg) (fun r => ∃ ps : List (List EId), r = .ok ps ∧ ps.Nodup ∧ ∀ q, q ∈ ps ↔ R' q) →
      h.Corresponds h' (paths it a b arg) (paths it' (f a) (f b) arg) (fun x y => (∃ e, x = .error e ∧ y = .error e) ∨ ∃ ps qs, x = .ok ps ∧ y = .ok qs ∧ qs.Perm (ps.map (List.map f))) := by
    intro R R' hR hR' hRR h1 h2
    refine corresponds_of h1 h2 ?_
    rintro _ _ ⟨ps, rfl, n1, m1⟩ ⟨qs, rfl, n2, m2⟩
    refine .inr ⟨ps, qs, rfl, rfl, (List.perm_ext_iff_of_nodup n2 ?_).2 fun q => ?_⟩
    · refine n1.map_on fun p hp q hq e => ?_
      have sp := φ.path_sub ha (hR p ((m1 p).1 hp))
      have sq := φ.path_sub ha (hR q ((m1 q).1 hq))
      exact map_injOn_list φ.inj sp sq e
    · rw [m2, List.mem_map]
      constructor
      · intro hq
        obtain ⟨p, hp, rfl⟩ := φ.path_back ha hb (hR' q hq)
        exact ⟨p, (m1 p).2 ((hRR p hp).1 hq), rfl⟩
      · rintro ⟨p, hp, rfl⟩
        have hp' := (m1 p).1 hp
        exact (hRR p (hR p hp')).2 hp'
  have ext : ∀ (op : ℕ → ℕ → Prop) (p : List EId), LinkPath h.Lt a b p →
      ((LinkPath h'.Lt (f a) (f b) (p.map f) ∧ ∀ q', LinkPath h'.Lt (f a) (f b) q' → op (p.map f).length q'.length) ↔ (LinkPath h.Lt a b p ∧ ∀ q', LinkPath h.Lt a b q' → op p.length q'.length)) := by
    intro op p hp
    constructor
    · rintro ⟨-, hq⟩
      refine ⟨hp, fun q' hq' => ?_⟩
      have := hq _ (φ.path ha hq')
      simpa using this
    · rintro ⟨-, hq⟩
      refine ⟨φ.path ha hp, fun q' hq' => ?_⟩
      obtain ⟨p', hp', rfl⟩ := φ.path_back ha hb hq'
      simpa using hq _ hp'
  by_cases h1 : arg = .str "min"
  · subst h1
    exact good (fun q hq => hq.1) (fun q hq => hq.1) (ext (· ≤ ·)) (C34_min it v a b) (C34_min it' v' (f a) (f b))
  by_cases h2 : arg = .str "max"
  · subst h2
    exact good (fun q hq => hq.1) (fun q hq => hq.1) (ext (fun x y => y ≤ x)) (C34_max it v a b _ (.inl rfl)) (C34_max it' v' (f a) (f b) _ (.inl rfl))
  by_cases h3 : arg = .str "timegeo"
  · subst h3
    exact good (fun q hq => hq.1) (fun q hq => hq.1) (ext (fun x y => y ≤ x)) (C34_max it v a b _ (.inr rfl)) (C34_max it' v' (f a) (f b) _ (.inr rfl))
  cases hr : arg.range with
  | some r =>
    refine good (fun q hq => hq.1) (fun q hq => hq.1) (fun p hp => ?_) (C33_paths it v a b arg ⟨h1, h2, h3⟩ r.1 r.2 hr) (C33_paths it' v' (f a) (f b) arg ⟨h1, h2, h3⟩ r.1 r.2 hr)
    rw [List.length_map]
    exact and_congr_left fun _ => ⟨fun _ => hp, fun _ => φ.path ha hp⟩
  | none =>
    cases arg with
    | other => exact corresponds_of (C33_errors (h := h) it a b).1 (C33_errors (h := h') it' (f a) (f b)).1 fun _ _ e e' => .inl ⟨_, e, e'⟩
    | list l =>
      cases l with
      | nil => exact corresponds_of (C33_errors (h := h) it a b).2 (C33_errors (h := h') it' (f a) (f b)).2 fun _ _ e e' => .inl ⟨_, e, e'⟩
      | cons x xs => simp [LenArg.range] at hr
    | str s => simp [LenArg.range] at hr
    | int z => simp [LenArg.range] at hr

/-- **C109, paths, link counts and matrices of causets.** `isPath` and `linkCount` have the same answers, the four matrices for a given list of events are the same. -/
theorem C109_matrices (it it' : Iter) (as as' : ArgSort) {C s : Finset EId} (hC : C ⊆ U) (hs : s ⊆ U) {l : List EId} (hl : ∀ x ∈ l, x ∈ U) :
    h.Corresponds h' (isPath it C (some s)) (isPath it' (C.image f) (some (s.image f))) (fun x y => y = x) ∧
    h.Corresponds h' (isPath it C none) (isPath it' (C.image f) none) (fun x y => y = x) ∧
    h.Corresponds h' (linkCount it C (some s)) (linkCount it' (C.image f) (some (s.image f))) (fun x y => y = x) ∧
    h.Corresponds h' (linkCount it C none) (linkCount it' (C.image f) none) (fun x y => y = x) ∧
    h.Corresponds h' (linkCountOf it s) (linkCountOf it' (s.image f)) (fun x y => y = x) ∧
    h'.pastMatrix it' as' (C.image f) (some (l.map f)) = h.pastMatrix it as C (some l) ∧ h'.futureMatrix it' as' (C.image f) (some (l.map f)) = h.futureMatrix it as C (some l) ∧
    h.Corresponds h' (linkPastMatrix it as C (some l)) (linkPastMatrix it' as' (C.image f) (some (l.map f))) (fun x y => y = x) ∧
    h.Corresponds h' (linkFutureMatrix it as C (some l)) (linkFutureMatrix it' as' (C.image f) (some (l.map f))) (fun x y => y = x) := by
  have pl_sub : ∀ a ∈ U, h.pastLinks a ⊆ U := fun a ha => (Finset.filter_subset _ _).trans (φ.past_sub v v' ha)
  have fl_sub : ∀ a ∈ U, h.futureLinks a ⊆ U := fun a ha => (Finset.filter_subset _ _).trans (φ.future_sub v v' ha)
  have deg : ∀ a ∈ s, linkDeg h' (s.image f) (f a) = linkDeg h s a := by
    intro a ha
    unfold linkDeg
    rw [φ.pastLinks v v' (hs ha), φ.futureLinks v v' (hs ha), ← Finset.image_union, φ.inter (Finset.union_subset (pl_sub a (hs ha)) (fl_sub a (hs ha))) hs,
      φ.card (Finset.inter_subset_right.trans hs)]
  have pm : h'.pastMatrixOf (l.map f) = h.pastMatrixOf l := by
    unfold pastMatrixOf
    rw [List.map_map]
    refine List.map_congr_left fun a ha => ?_
    rw [Function.comp, List.map_map]
    exact List.map_congr_left fun b hb => φ.gt v v' (hl a ha) (hl b hb)
  have lc : ∀ t ⊆ U, ∀ T : EId → Finset EId, ∀ T' : EId → Finset EId, (∀ e ∈ t, T e ⊆ U ∧ T' (f e) = (T e).image f) → ∑ e ∈ t.image f, (T' e).card = ∑ e ∈ t, (T e).card := by
    intro t ht T T' hT
    rw [Finset.sum_image (fun x hx y hy e => φ.inj x (ht hx) y (ht hy) e)]
    exact Finset.sum_congr rfl fun e he => by rw [(hT e he).2, φ.card (hT e he).1]
  have lcs := lc s hs (fun e => h.pastLinks e ∩ s) (fun e => h'.pastLinks e ∩ s.image f) (fun e he => ⟨Finset.inter_subset_right.trans hs, by rw [φ.pastLinks v v' (hs he), φ.inter (pl_sub e (hs he)) hs]⟩)
  have lcC := lc C hC h.pastLinks h'.pastLinks (fun e he => ⟨pl_sub e (hC he), φ.pastLinks v v' (hC he)⟩)
  have m1 : ∀ (g : Heap) (vg : g.Valid) (k : List EId), g.Answers (linkPastMatrixOf k) (k.map (fun a => k.map (fun b => decide (b ∈ g.pastLinks a)))) := by
    intro g vg k
    unfold linkPastMatrixOf
    exact Answers.mapM k fun a _ => Answers.mapM k fun b _ => isPastLink_answers vg a b
  have meq : (l.map f).map (fun a => (l.map f).map (fun b => decide (b ∈ h'.pastLinks a))) = l.map (fun a => l.map (fun b => decide (b ∈ h.pastLinks a))) := by
    rw [List.map_map]
    refine List.map_congr_left fun a ha => ?_
    rw [Function.comp, List.map_map]
    refine List.map_congr_left fun b hb => ?_
    rw [Function.comp, decide_eq_decide, φ.pastLinks v v' (hl a ha), φ.mem_iff (hl b hb) (pl_sub a (hl a ha))]
  have lpm' : h.Corresponds h' (linkPastMatrix it as C (some l)) (linkPastMatrix it' as' (C.image f) (some (l.map f))) (fun x y => y = x) := by
    intro g g' so lx so' lx'
    have e1 := (m1 h v l g so lx).1
    have e2 := (m1 h' v' (l.map f) g' so' lx').1
    unfold linkPastMatrix
    rw [meq] at e2
    exact congrArg Except.ok (e2.trans e1.symm)
  refine ⟨?_, ?_, ?_, ?_, corresponds_answers (linkCountOf_answers it v s) (linkCountOf_answers it' v' (s.image f)) lcs, ?_, ?_, lpm', ?_⟩
  · by_cases hc : 2 ≤ s.card
    · refine corresponds_answers (C22_isPath_degrees it v C s hc) (C22_isPath_degrees it' v' (C.image f) (s.image f) (by rw [φ.card hs]; exact hc)) ?_
      rw [decide_eq_decide, Finset.forall_mem_image]
      refine and_congr (forall₂_congr fun a ha => by rw [deg a ha]) ?_
      rw [CausalIso.filter (p := fun e => linkDeg h s e = 1) (fun a ha => by rw [deg a ha]), φ.card ((Finset.filter_subset _ _).trans hs)]
    · intro g g' _ _ _ _
      simp only [isPath, φ.card hs, show s.card ≤ 1 by omega, if_true]
      rfl
  · intro g g' so lx so' lx'
    by_cases hc : C.card = 0
    · simp only [isPath, φ.card hC, hc, if_true]; rfl
    · simp only [isPath, φ.card hC, hc, if_false]
      have e1 : g.isChain it C none = h.isChain it C none := by simp only [isChain, coneCard, so.prec, so.succ]; congr!
      have e2 : g'.isChain it' (C.image f) none = h'.isChain it' (C.image f) none := by simp only [isChain, coneCard, so'.prec, so'.succ]; congr!
      have := φ.isChain v v' it it' hC none (by rintro _ ⟨⟩)
      change g'.isChain it' (C.image f) none = g.isChain it C none
      rw [e1, e2]; exact this
  · refine corresponds_answers (C38_linkCount_of it v C s) (C38_linkCount_of it' v' (C.image f) (s.image f)) ?_
    rw [← card_links v', ← card_links v]
    exact lcs
  · have m1 : ∀ (g : Heap) (vg : g.Valid) (jt : Iter) (D : Finset EId), g.Answers (linkCount jt D none) (∑ e ∈ D, (g.pastLinks e).card) := by
      intro g vg jt D
      unfold linkCount
      refine Answers.bind (x := (jt.ord [308] D).map (fun e => (g.pastLinks e).card)) (Answers.mapM _ (fun e _ => linkPastCard_answers vg e)) ?_
      rw [sum_ord]
      exact Answers.pure
    exact corresponds_answers (m1 h v it C) (m1 h' v' it' _) lcC
  · simp only [pastMatrix, pm]
  · simp only [futureMatrix, pastMatrix, pm]
  · have m2 : ∀ (g : Heap) (vg : g.Valid) (jt : Iter) (js : ArgSort) (D : Finset EId) (k : List EId),
        g.Answers (linkFutureMatrix jt js D (some k)) (.ok (matT (k.map (fun a => k.map (fun b => decide (b ∈ g.pastLinks a)))))) := by
      intro g vg jt js D k
      unfold linkFutureMatrix
      refine Answers.bind (x := .ok (k.map (fun a => k.map (fun b => decide (b ∈ g.pastLinks a))))) ?_ ?_
      · unfold linkPastMatrix
        exact Answers.bind (m1 g vg k) Answers.pure
      · exact Answers.pure
    refine corresponds_answers (m2 h v it as C l) (m2 h' v' it' as' _ (l.map f)) ?_
    rw [meq]

/-- **C109, central antichain.** `CentralAntichain` returns the corresponding events if the sets are enumerated correspondingly (its result depends on the order of enumeration, see C28). -/
theorem C109_central (it it' : Iter) {C : Finset EId} (hC : C ⊆ U) (hit : it'.ord [715] (C.image f) = (it.ord [715] C).map f) (e : Option EId) (he : ∀ x ∈ e, x ∈ U) :
    h'.centralAntichain it' (C.image f) (e.map f) = (h.centralAntichain it C e).image f := by
  have hd : h'.centralDiff (e.map f) = h.centralDiff e := by
    cases e with
    | none => rfl
    | some x => simp only [Option.map_some, Heap.centralDiff, φ.pastCard v v' (he x rfl), φ.futureCard v v' (he x rfl)]
  have him : ∀ d, ∀ x ∈ U, h'.imbalance d (f x) = h.imbalance d x := fun d x hx => by
    unfold Heap.imbalance; rw [φ.pastCard v v' hx, φ.futureCard v v' hx]
  have inner : ∀ d n (l : List EId) (s : Finset EId), (∀ x ∈ l, x ∈ U) → s ⊆ U → h'.centralInner d n (l.map f) (s.image f) = (h.centralInner d n l s).image f ∧ h.centralInner d n l s ⊆ U := by
    intro d n l
    induction l with
    | nil => intro s _ hs; exact ⟨rfl, hs⟩
    | cons x xs ih =>
      intro s hl hs
      have hx := hl x (by simp)
      simp only [List.map_cons, Heap.centralInner, him d x hx]
      have hc : h'.cone (f x) ∩ s.image f = ∅ ↔ h.cone x ∩ s = ∅ := by
        rw [φ.cone v v' hx, φ.inter (φ.cone_sub v v' hx) hs, Finset.image_eq_empty]
      simp only [hc]
      split
      · have hs' : insert x s ⊆ U := Finset.insert_subset hx hs
        rw [← Finset.image_insert]
        exact ih _ (fun y hy => hl y (by simp [hy])) hs'
      · exact ih _ (fun y hy => hl y (by simp [hy])) hs
  have outer : ∀ d (l : List EId) (ns : List ℕ) (s : Finset EId), (∀ x ∈ l, x ∈ U) → s ⊆ U →
      ns.foldl (fun t n => h'.centralInner d n (l.map f) t) (s.image f) = (ns.foldl (fun t n => h.centralInner d n l t) s).image f := by
    intro d l ns
    induction ns with
    | nil => intro s _ _; rfl
    | cons n ns ih =>
      intro s hl hs
      obtain ⟨e1, e2⟩ := inner d n l s hl hs
      simp only [List.foldl_cons]
      rw [e1]
      exact ih _ hl e2
  have hl : ∀ x ∈ it.ord [715] C, x ∈ U := fun x hx => hC ((it.mem _ _ _).1 hx)
  unfold Heap.centralAntichain
  dsimp only
  rw [hd, hit, List.map_map]
  have : (it.ord [715] C).map (h'.imbalance (h.centralDiff e) ∘ f) = (it.ord [715] C).map (h.imbalance (h.centralDiff e)) :=
    List.map_congr_left fun x hx => him _ x (hl x hx)
  rw [this]
  have := outer (h.centralDiff e) (it.ord [715] C) (((it.ord [715] C).map (h.imbalance (h.centralDiff e))).dedup.insertionSort (· ≤ ·)) ∅ hl (by simp)
  rwa [Finset.image_empty] at this

end

/-! ## Where isomorphisms come from -/

/-- **C109, what is read.** If two states agree on the relations between the events of a set that is causally closed in both, the identity is an isomorphism: all answers above about these events are the same in both states, whatever
other events, relations, labels and computed links there are. -/
theorem C109_local (hU : Closed h.Lt U) (hU' : Closed h'.Lt U) (ha : ∀ a ∈ U, ∀ b ∈ U, h.Lt a b ↔ h'.Lt a b) : CausalIso h.Lt h'.Lt U id where
  inj := fun _ _ _ _ e => e
  closed := hU
  closed' := by simpa using hU'
  iff := ha

open Classical in
/-- **C109, constructors.** If two calls (of any of the functions that create causets, see `Realises`) create events ordered by the same relation, in whatever states and with whatever
identities, then the created causets are isomorphic. -/
theorem C109_realises {h0 h0' : Heap} (v0 : h0.Valid) (v0' : h0'.Valid) {ι : Type} [Fintype ι] [Nonempty ι] {ids ids' : ι → EId} {R : ι → ι → Prop} (r : Realises h0 h ids R) (r' : Realises h0' h' ids' R) :
    CausalIso h.Lt h'.Lt (Finset.univ.image ids) (fun x => ids' (Function.invFun ids x)) := by
  have hinv : ∀ i, Function.invFun ids (ids i) = i := fun i => Function.leftInverse_invFun r.injective i
  have himg : (Finset.univ.image ids).image (fun x => ids' (Function.invFun ids x)) = Finset.univ.image ids' := by
    rw [Finset.image_image]
    exact Finset.image_congr fun i _ => by simp [hinv]
  have cl : ∀ {k0 k : Heap} {js : ι → EId} (_ : k0.Valid) (_ : Realises k0 k js R), Closed k.Lt (Finset.univ.image js) := by
    intro k0 k js vk rk x hx y hy
    obtain ⟨i, -, rfl⟩ := Finset.mem_image.1 hx
    have : ∀ a b, k.Lt a b → (a = js i ∨ b = js i) → a ∈ Finset.univ.image js ∧ b ∈ Finset.univ.image js := by
      intro a b hab hor
      rcases rk.only a b hab with hold | ⟨m, n, rfl, rfl⟩
      · have := vk.exists_of_lt a b hold
        rcases hor with rfl | rfl
        · exact absurd this.1 (rk.fresh i)
        · exact absurd this.2 (rk.fresh i)
      · exact ⟨Finset.mem_image_of_mem _ (Finset.mem_univ _), Finset.mem_image_of_mem _ (Finset.mem_univ _)⟩
    rcases hy with hy | hy
    · exact (this _ _ hy (.inl rfl)).2
    · exact (this _ _ hy (.inr rfl)).1
  refine ⟨?_, cl v0 r, by rw [himg]; exact cl v0' r', ?_⟩
  · intro a ha b hb e
    obtain ⟨i, -, rfl⟩ := Finset.mem_image.1 ha
    obtain ⟨j, -, rfl⟩ := Finset.mem_image.1 hb
    simp only [hinv] at e
    rw [r'.injective e]
  · intro a ha b hb
    obtain ⟨i, -, rfl⟩ := Finset.mem_image.1 ha
    obtain ⟨j, -, rfl⟩ := Finset.mem_image.1 hb
    simp only [hinv]
    rw [r.rel, r'.rel]

/-! ## A concrete case -/

/-- a single event, and a diamond that is created from the top to the bottom -/
def exDiamondDown : Heap :=
  let h1 := (Heap.empty.newEvent Iter.asc none [] []).2
  let h2 := (h1.newEvent Iter.asc none [] []).2
  let h3 := (h2.newEvent Iter.asc none [] [1]).2
  let h4 := (h3.newEvent Iter.asc none [] [1]).2
  (h4.newEvent Iter.asc none [] [2, 3]).2

theorem exDiamondDown_reach : LinkReachable exDiamondDown := by
  refine .new _ _ _ _ _ (.new _ _ _ _ _ (.new _ _ _ _ _ (.new _ _ _ _ _ (.new _ _ _ _ _ .start ?_ ?_ ?_) ?_ ?_ ?_) ?_ ?_ ?_) ?_ ?_ ?_) ?_ ?_ ?_ <;> simp [Heap.Exists, Heap.newEvent_fst] <;> decide

/-- C109: the diamond created from the bottom (events 0 to 3) and the one created from the top (events 4 to 1, beside another event 0) are isomorphic; the ranks of the two
top events over the two bottom events are therefore the same, and so on. -/
theorem C109_case : exDiamond.Valid ∧ exDiamondDown.Valid ∧ CausalIso exDiamond.Lt exDiamondDown.Lt {0, 1, 2, 3} (fun x => 4 - x) ∧
    exDiamond.past 3 = {0, 1, 2} ∧ exDiamondDown.past 1 = {4, 3, 2} := by
  refine ⟨exDiamond_valid, exDiamondDown_reach.valid, ⟨by decide, ?_, ?_, ?_⟩, by decide, by decide⟩
  · intro a _ b hb
    have hx : b < 4 := by
      rcases hb with hb | hb
      exacts [(exDiamond_valid.exists_of_lt _ _ hb).2, (exDiamond_valid.exists_of_lt _ _ hb).1]
    simp only [Finset.mem_insert, Finset.mem_singleton]; omega
  · intro a ha b hb
    have hx : b < 5 := by
      rcases hb with hb | hb
      exacts [(exDiamondDown_reach.valid.exists_of_lt _ _ hb).2, (exDiamondDown_reach.valid.exists_of_lt _ _ hb).1]
    have h0 : b ≠ 0 := by
      rintro rfl
      revert hb
      have : ∀ a ∈ ({0, 1, 2, 3} : Finset ℕ).image (fun x => 4 - x), ¬Related exDiamondDown.Lt a 0 := by
        unfold Related Heap.Lt; decide +kernel
      exact this a ha
    have : b ∈ ({1, 2, 3, 4} : Finset ℕ) := by simp only [Finset.mem_insert, Finset.mem_singleton]; omega
    revert this; clear hx h0 hb; revert b; decide
  · unfold Heap.Lt; decide +kernel

end Causets
