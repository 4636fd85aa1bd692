import Verif.Props.Iso

/-! # The time reverse of a state (used for C110) -/

namespace Causets
open Heap

/-- the state in which past and future have been exchanged everywhere -/
def Heap.dual (h : Heap) : Heap := { h with prec := h.succ, succ := h.prec, lprec := h.lsucc, lsucc := h.lprec }

variable {h : Heap}

theorem dual_Lt (v : h.Valid) (a b : EId) : h.dual.Lt a b ↔ h.Lt b a := by
  rw [← v.future_eq]
  exact decide_eq_true_iff

theorem dual_Lt_eq (v : h.Valid) : h.dual.Lt = fun a b => h.Lt b a := by
  funext a b; exact propext (dual_Lt v a b)

theorem mem_prec_iff (v : h.Valid) (a b : EId) : a ∈ h.prec b ↔ b ∈ h.succ a := (v.past_eq a b).trans (v.future_eq a b).symm

theorem dual_valid (v : h.Valid) : h.dual.Valid where
  order := ⟨fun a => by rw [dual_Lt v]; exact v.order.irrefl a, fun a b c => by rw [dual_Lt v, dual_Lt v, dual_Lt v]; exact fun x y => v.order.trans _ _ _ y x⟩
  past_eq := fun a b => by rw [dual_Lt v]; exact v.future_eq b a
  future_eq := fun a b => by rw [dual_Lt v]; exact v.past_eq b a
  exists_of_lt := fun a b hab => by
    rw [dual_Lt v] at hab
    exact (v.exists_of_lt _ _ hab).symm

theorem dual_dual (h : Heap) : h.dual.dual = h := rfl

theorem covers_flip (lt : ℕ → ℕ → Prop) (a b : ℕ) : Covers (fun x y => lt y x) a b ↔ Covers lt b a := by
  unfold Covers
  exact and_congr_right fun _ => forall_congr' fun c => by rw [and_comm]

theorem closed_flip (lt : ℕ → ℕ → Prop) (s : Finset ℕ) : Closed (fun x y => lt y x) s ↔ Closed lt s := by
  unfold Closed Related
  exact forall₃_congr fun a _ b => by rw [or_comm]

theorem linkPath_flip (lt : ℕ → ℕ → Prop) (a b : ℕ) (p : List ℕ) : LinkPath (fun x y => lt y x) a b p ↔ LinkPath lt b a p.reverse := by
  unfold LinkPath
  rw [List.head?_reverse, List.getLast?_reverse, List.isChain_reverse]
  have : (fun a b => Covers lt b a) = Covers (fun x y => lt y x) := by
    funext x y; exact propext (covers_flip lt x y).symm
  constructor
  · rintro ⟨h1, h2, h3⟩; exact ⟨h2, h1, by rw [this]; exact h3⟩
  · rintro ⟨h1, h2, h3⟩; exact ⟨h2, h1, by rw [this] at h3; exact h3⟩

theorem isRank_flip (lt : ℕ → ℕ → Prop) (a b : ℕ) (r : ℕ∞) : IsRank (fun x y => lt y x) a b r ↔ IsRank lt b a r := by
  unfold IsRank
  have : {m : ℕ | ∃ p, LinkPath (fun x y => lt y x) a b p ∧ p.length = m + 1} = {m | ∃ p, LinkPath lt b a p ∧ p.length = m + 1} := by
    ext m
    constructor
    · rintro ⟨p, hp, hl⟩
      exact ⟨p.reverse, (linkPath_flip lt a b p).1 hp, by simpa using hl⟩
    · rintro ⟨p, hp, hl⟩
      exact ⟨p.reverse, (linkPath_flip lt a b _).2 (by simpa using hp), by simpa using hl⟩
  rw [this, eq_comm (a := a)]

theorem components_flip {lt : ℕ → ℕ → Prop} {s : Finset ℕ} {ls : List (Finset ℕ)} (sp : ComponentsSpec (fun x y => lt y x) s ls) : ComponentsSpec lt s ls := by
  have hr : ∀ a b, Related (fun x y => lt y x) a b ↔ Related lt a b := fun a b => by unfold Related; rw [or_comm]
  refine ⟨sp.nonempty, sp.cover, sp.disjoint, ?_, ?_⟩
  · simpa only [hr] using sp.unrelated
  · simpa only [Connected, hr] using sp.connected

/-! ## Events -/

theorem dual_lt (v : h.Valid) (a b : EId) : h.dual.lt a b = h.gt a b :=
  decide_eq_decide.2 (mem_prec_iff v b a).symm

theorem dual_gt (v : h.Valid) (a b : EId) : h.dual.gt a b = h.lt a b :=
  decide_eq_decide.2 (mem_prec_iff v a b).symm

theorem dual_le (v : h.Valid) (a b : EId) : h.dual.le a b = h.ge a b :=
  congrArg (decide (a = b) || ·) (decide_eq_decide.2 (mem_prec_iff v b a).symm)

theorem dual_ge (v : h.Valid) (a b : EId) : h.dual.ge a b = h.le a b :=
  congrArg (decide (a = b) || ·) (decide_eq_decide.2 (mem_prec_iff v a b).symm)

theorem ge_eq_le (a b : EId) : h.ge a b = h.le b a := by
  simp [Heap.le, Heap.ge, eq_comm]

theorem gt_eq_lt (a b : EId) : h.gt a b = h.lt b a := rfl

theorem dual_isCausalTo (v : h.Valid) (a b : EId) : h.dual.isCausalTo a b = h.isCausalTo a b := by
  unfold Heap.isCausalTo
  rw [dual_le v, dual_gt v]
  unfold Heap.le Heap.ge Heap.lt Heap.gt
  rw [Bool.or_assoc, Bool.or_assoc, Bool.or_comm (decide (b ∈ h.prec a))]

theorem dual_isSpacelikeTo (a b : EId) : h.dual.isSpacelikeTo a b = h.isSpacelikeTo a b := by
  unfold Heap.isSpacelikeTo Heap.dual
  rw [Bool.and_assoc, Bool.and_assoc, Bool.and_comm (decide (b ∉ h.succ a))]

theorem dual_past (e : EId) : h.dual.past e = h.future e := rfl
theorem dual_future (e : EId) : h.dual.future e = h.past e := rfl
theorem dual_presentOrPast (e : EId) : h.dual.presentOrPast e = h.presentOrFuture e := rfl
theorem dual_presentOrFuture (e : EId) : h.dual.presentOrFuture e = h.presentOrPast e := rfl

theorem dual_cone (e : EId) : h.dual.cone e = h.cone e := by
  unfold Heap.cone Heap.dual
  ext x; simp only [Finset.mem_union]; tauto

theorem dual_pastCard (e : EId) : h.dual.pastCard e = h.futureCard e := rfl
theorem dual_futureCard (e : EId) : h.dual.futureCard e = h.pastCard e := rfl

theorem dual_coneCard (e : EId) : h.dual.coneCard e = h.coneCard e := by
  unfold Heap.coneCard Heap.dual
  rw [Nat.add_comm (h.succ e).card]

theorem dual_spacelike (e : EId) (s : Finset EId) : h.dual.spacelike e s = h.spacelike e s := by
  unfold Heap.spacelike; rw [dual_cone]

theorem dual_spacelikeCard (e : EId) (s : Finset EId) : h.dual.spacelikeCard e s = h.spacelikeCard e s := by
  have : (s \ h.succ e) \ h.prec e = (s \ h.prec e) \ h.succ e := sdiff_right_comm ..
  unfold Heap.spacelikeCard Heap.dual
  simp only [this]

theorem dual_isLink (v : h.Valid) (a b : EId) : h.dual.isLink a b = h.isLink b a := by
  unfold Heap.isLink Heap.dual
  simp only [Finset.inter_comm]

theorem dual_pastLinks (v : h.Valid) (e : EId) : h.dual.pastLinks e = h.futureLinks e := by
  unfold Heap.pastLinks Heap.futureLinks
  simp only [dual_isLink v]; rfl

theorem dual_futureLinks (v : h.Valid) (e : EId) : h.dual.futureLinks e = h.pastLinks e := by
  unfold Heap.pastLinks Heap.futureLinks
  simp only [dual_isLink v]; rfl

/-! ## Sets -/

theorem dual_pastOf (it : Iter) (v : h.Valid) (s : Finset EId) (p i : Bool) : h.dual.pastOf it s p i = h.futureOf it s p i := by
  ext x
  cases i
  · rw [C24_pastOf it (dual_valid v), C24_futureOf it v]
    simp only [dual_Lt v]
  · rw [(C25_refuted it h.dual s p).1, (C25_refuted it h s p).2.1]

theorem dual_futureOf (it : Iter) (v : h.Valid) (s : Finset EId) (p i : Bool) : h.dual.futureOf it s p i = h.pastOf it s p i := by
  rw [← dual_pastOf it (dual_valid v), dual_dual]

theorem dual_coneOf (it : Iter) (v : h.Valid) (s : Finset EId) (p i : Bool) : h.dual.coneOf it s p i = h.coneOf it s p i := by
  ext x
  cases i
  · rw [C24_coneOf it (dual_valid v), C24_coneOf it v]
    simp only [Related, dual_Lt v, or_comm]
  · rw [(C25_refuted it h.dual s p).2.2, (C25_refuted it h s p).2.2]

theorem dual_spacelikeTo (it : Iter) (v : h.Valid) (C s : Finset EId) : h.dual.spacelikeTo it C s = h.spacelikeTo it C s := by
  unfold Heap.spacelikeTo; rw [dual_coneOf it v]

theorem dual_isChain (it : Iter) (C : Finset EId) (o : Option (Finset EId)) : h.dual.isChain it C o = h.isChain it C o := by
  cases o <;> simp only [Heap.isChain, dual_cone, dual_coneCard]

theorem dual_isAntichain (it : Iter) (C : Finset EId) (o : Option (Finset EId)) : h.dual.isAntichain it C o = h.isAntichain it C o := by
  cases o <;> simp only [Heap.isAntichain, dual_cone, dual_coneCard]

theorem dual_interval (v : h.Valid) (a b : EId) (ib : Bool) : h.dual.interval a b ib = h.interval b a ib := by
  unfold Heap.interval
  rw [dual_le v, ge_eq_le]
  simp only [dual_presentOrFuture, dual_presentOrPast, dual_future, dual_past, eq_comm (a := a)]
  rw [Finset.inter_comm (h.presentOrPast a), Finset.inter_comm (h.past a)]
  split
  · rfl
  · split
    · rename_i hx; rw [hx]
    · rfl

theorem dual_intervalCard (v : h.Valid) (a b : EId) (ib : Bool) : h.dual.intervalCard a b ib = h.intervalCard b a ib := by
  unfold Heap.intervalCard
  rw [dual_le v, ge_eq_le]
  simp only [dual_future, dual_past, eq_comm (a := a)]
  rw [Finset.inter_comm (h.past a)]

/-! ## Layers -/

theorem dual_layerDown (v : h.Valid) (s : Finset EId) (a : EId) : h.dual.layerDown s a = -h.layerUp s a := by
  unfold Heap.layerDown Heap.layerUp
  simp only [dual_future, dual_intervalCard v]
  split <;> simp

theorem dual_layerUp (v : h.Valid) (s : Finset EId) (a : EId) : h.dual.layerUp s a = -h.layerDown s a := by
  rw [← dual_dual h, dual_layerDown (dual_valid v), dual_dual, neg_neg]

theorem mem_layers (it : Iter) (v : h.Valid) (s : Finset EId) (first : ℤ) (last : Option ℤ) (x : EId) :
    x ∈ h.layers it s first last ↔ first ≤ last.getD first ∧
      ((first ≤ 0 ∧ (x ∈ s ∨ ∃ b ∈ s, h.Lt x b) ∧ first ≤ h.layerDown s x ∧ h.layerDown s x ≤ min 0 (last.getD first)) ∨
       (0 < last.getD first ∧ (x ∈ s ∨ ∃ a ∈ s, h.Lt a x) ∧ max first 0 ≤ h.layerUp s x ∧ h.layerUp s x ≤ last.getD first)) := by
  unfold Heap.layers
  dsimp only
  by_cases h0 : s = ∅
  · subst h0; simp
  have h0' : s.card ≠ 0 := by rwa [ne_eq, Finset.card_eq_zero]
  by_cases h1 : first > last.getD first
  · rw [if_pos (.inr h1)]
    simp only [Finset.notMem_empty, false_iff, not_and]
    intro; omega
  rw [if_neg (by tauto)]
  have e1 : ∀ y, y ∈ h.pastOf it s true false ↔ y ∈ s ∨ ∃ b ∈ s, h.Lt y b := fun y => by rw [C24_pastOf it v]; simp [or_comm]
  have e2 : ∀ y, y ∈ h.futureOf it s true false ↔ y ∈ s ∨ ∃ b ∈ s, h.Lt b y := fun y => by rw [C24_futureOf it v]; simp [or_comm]
  have h1' : first ≤ last.getD first := by omega
  by_cases h2 : first ≤ 0 <;> by_cases h3 : last.getD first > 0 <;> simp only [h2, h3, if_true, if_false, Finset.mem_union, Finset.mem_filter, e1, e2, h1', true_and, false_and, or_false, false_or, Finset.notMem_empty]

/-- for which sets and bounds the layers are symmetric: the events of the set are an antichain, or no bound is 0 -/
def TwoSided (lt : ℕ → ℕ → Prop) (s : Finset ℕ) (first last : ℤ) : Prop := IsAntichainSet lt s ∨ (first ≠ 0 ∧ last ≠ 0)

theorem dual_layers (it : Iter) (v : h.Valid) (s : Finset EId) (first : ℤ) (last : Option ℤ) (ok : TwoSided h.Lt s first (last.getD first)) :
    h.dual.layers it s first last = h.layers it s (-last.getD first) (some (-first)) := by
  ext x
  rw [mem_layers it (dual_valid v), mem_layers it v]
  simp only [dual_layerDown v, dual_layerUp v, dual_Lt v, Option.getD_some]
  generalize last.getD first = L at *
  have up0 := layerUp_nonneg v s x
  have down0 := layerDown_neg v s x
  have upz := layerUp_zero v s x
  have downz := layerDown_zero v s x
  have key : (IsAntichainSet h.Lt s → (x ∈ s ∨ ∃ b ∈ s, h.Lt x b) → ¬∃ a ∈ s, h.Lt a x) ∧ (IsAntichainSet h.Lt s → (x ∈ s ∨ ∃ a ∈ s, h.Lt a x) → ¬∃ b ∈ s, h.Lt x b) := by
    constructor
    · rintro anti (hx | ⟨b, hb, hxb⟩) ⟨a, ha, hax⟩
      exacts [anti a ha x hx hax, anti a ha b hb (v.trans hax hxb)]
    · rintro anti (hx | ⟨a, ha, hax⟩) ⟨b, hb, hxb⟩
      exacts [anti x hx b hb hxb, anti a ha b hb (v.trans hax hxb)]
  have upz' : (¬∃ a ∈ s, h.Lt a x) → h.layerUp s x = 0 := fun hn => upz fun a ha hax => hn ⟨a, ha, hax⟩
  have downz' : (¬∃ b ∈ s, h.Lt x b) → h.layerDown s x = 0 := fun hn => downz fun a ha hax => hn ⟨a, ha, hax⟩
  unfold TwoSided at ok
  clear upz downz
  generalize (IsAntichainSet h.Lt s) = Anti at *
  generalize (∃ a ∈ s, h.Lt a x) = B at *
  generalize (∃ b ∈ s, h.Lt x b) = A at *
  generalize (x ∈ s) = S at *
  generalize h.layerUp s x = u at *
  generalize h.layerDown s x = d at *
  by_cases hB : B <;> by_cases hA : A <;> by_cases hS : S <;> by_cases hN : Anti <;> simp only [hB, hA, hS, hN, not_true, not_false_eq_true, true_or, or_true, or_false, false_or, and_false, forall_const, true_and, and_true, IsEmpty.forall_iff, imp_false, false_and, or_self] at * <;> omega

theorem dual_layerNumbers (v : h.Valid) (l : List EId) (r : Bool) : h.dual.layerNumbers l r = (h.layerNumbers l (!r)).map (fun n => -n) := by
  unfold Heap.layerNumbers
  split
  · rfl
  · rw [List.map_map]
    refine List.map_congr_left fun e _ => ?_
    cases r <;> simp [dual_layerUp v, dual_layerDown v]

theorem dual_layeredLoop (it : Iter) (v : h.Valid) (s : Finset EId) {step : ℤ} (hs : step ≠ 0) : ∀ (fuel : ℕ) (layer : Finset EId), h.dual.layeredLoop it s step fuel layer = h.layeredLoop it s (-step) fuel layer
  | 0, layer => rfl
  | fuel + 1, layer => by
    simp only [Heap.layeredLoop]
    rw [dual_layers it v layer step none (.inr ⟨hs, hs⟩)]
    have : h.layers it layer (-(none : Option ℤ).getD step) (some (-step)) = h.layers it layer (-step) none := rfl
    rw [this, dual_layeredLoop it v s hs fuel]

theorem dual_layered (it : Iter) (v : h.Valid) (C : Finset EId) (o : Option (Finset EId)) (r : Bool) : h.dual.layered it C o r = h.layered it C o (!r) := by
  unfold Heap.layered
  have e1 : ∀ s, h.dual.futureInfOf s = h.pastInfOf s := fun _ => rfl
  have e2 : ∀ s, h.dual.pastInfOf s = h.futureInfOf s := fun _ => rfl
  cases r
  · simp only [e2, dual_layeredLoop it v _ (show (1 : ℤ) ≠ 0 by decide), Bool.false_eq_true, if_false, Bool.not_false, if_true]
  · simp only [e1, dual_layeredLoop it v _ (show (-1 : ℤ) ≠ 0 by decide), Bool.false_eq_true, if_false, Bool.not_true, if_true, neg_neg]

/-! ## Interval sizes, distances -/

theorem dual_intervalCardIn (v : h.Valid) (a b : EId) (X : Option (Finset EId)) : h.dual.intervalCardIn a b X = h.intervalCardIn b a X := by
  unfold Heap.intervalCardIn
  simp only [dual_interval v, dual_intervalCard v]

theorem minOver_swap {α β : Type} (s : Finset α) (t : Finset β) (F : α × β → ℕ) : minOver (s ×ˢ t) F = minOver (t ×ˢ s) (fun x => F (x.2, x.1)) := by
  unfold minOver
  by_cases hn : (s ×ˢ t).Nonempty
  · have hn' : (t ×ˢ s).Nonempty := by rw [Finset.nonempty_product] at hn ⊢; exact hn.symm
    rw [dif_pos hn, dif_pos hn']
    apply le_antisymm
    · refine Finset.le_inf' _ _ fun x hx => ?_
      exact Finset.inf'_le (f := F) (b := (x.2, x.1)) (by rw [Finset.mem_product] at hx ⊢; exact hx.symm)
    · refine Finset.le_inf' _ _ fun x hx => ?_
      exact Finset.inf'_le (f := fun y : β × α => F (y.2, y.1)) (b := (x.2, x.1)) (by rw [Finset.mem_product] at hx ⊢; exact hx.symm)
  · have hn' : ¬(t ×ˢ s).Nonempty := by rw [Finset.nonempty_product] at hn ⊢; tauto
    rw [dif_neg hn, dif_neg hn']

theorem dual_smallestCommon (v : h.Valid) (a b : EId) (T : Finset EId) (X : Option (Finset EId)) : h.dual.smallestCommon a b T X = h.smallestCommon a b T X := by
  unfold Heap.smallestCommon
  simp only [dual_past, dual_future, dual_intervalCardIn v]
  generalize h.past a ∩ h.past b ∩ T = P
  generalize h.future a ∩ h.future b ∩ T = F
  rw [minOver_swap]
  by_cases hP : P = ∅ <;> by_cases hF : F = ∅ <;> simp [hP, hF]

theorem smallestCommon_comm (a b : EId) (T : Finset EId) (X : Option (Finset EId)) : h.smallestCommon b a T X = h.smallestCommon a b T X := by
  unfold Heap.smallestCommon
  simp only [Finset.inter_comm (h.past b), Finset.inter_comm (h.future b)]

theorem dual_smallestIntervalCard (v : h.Valid) (C : Finset EId) (a b : EId) (S X : Option (Finset EId)) : h.dual.smallestIntervalCard C a b S X = h.smallestIntervalCard C a b S X := by
  unfold Heap.smallestIntervalCard
  have hirr : ∀ {x y : EId}, h.lt x y = true → h.lt y x = false := fun {x y} h1 => by
    by_contra h2
    rw [Bool.not_eq_false] at h2
    exact v.order.irrefl _ (v.order.trans _ _ _ h1 h2)
  have le_iff : ∀ x y : EId, h.le x y = true ↔ x = y ∨ h.lt x y = true := fun x y => by simp [Heap.le, Heap.lt]
  have core : ∀ x y : EId, h.lt x y = true →
      (match S with
        | none => h.dual.intervalCardIn y x X
        | some t => if y ∈ t ∧ x ∈ t then h.dual.intervalCardIn y x X else if y ∈ t then cardIn (h.dual.future y) X else if x ∈ t then cardIn (h.dual.past x) X else h.dual.smallestCommon y x t X) =
      (match S with
        | none => h.intervalCardIn x y X
        | some t => if x ∈ t ∧ y ∈ t then h.intervalCardIn x y X else if x ∈ t then cardIn (h.future x) X else if y ∈ t then cardIn (h.past y) X else h.smallestCommon x y t X) := by
    intro x y _
    cases S with
    | none => exact dual_intervalCardIn v y x X
    | some t =>
      simp only [dual_intervalCardIn v, dual_future, dual_past, dual_smallestCommon v, smallestCommon_comm x y]
      by_cases hx : x ∈ t <;> by_cases hy : y ∈ t <;> simp [hx, hy]
  by_cases h1 : h.lt a b = true
  · have e1 : h.dual.gt a b = true := by rw [dual_gt v]; exact h1
    have e2 : h.gt a b = false := hirr h1
    have e3 : h.dual.le b a = true := by rw [dual_le v, ge_eq_le]; exact (le_iff _ _).2 (.inr h1)
    have e4 : h.le a b = true := (le_iff _ _).2 (.inr h1)
    simp only [e1, e2, if_true, Bool.false_eq_true, if_false, e3, e4]
    exact core a b h1
  by_cases h2 : h.lt b a = true
  · have e1 : h.dual.gt a b = false := by rw [dual_gt v]; exact Bool.eq_false_iff.2 h1
    have e2 : h.gt a b = true := h2
    have e3 : h.dual.le a b = true := by rw [dual_le v, ge_eq_le]; exact (le_iff _ _).2 (.inr h2)
    have e4 : h.le b a = true := (le_iff _ _).2 (.inr h2)
    simp only [e1, e2, if_true, Bool.false_eq_true, if_false, e3, e4]
    exact core b a h2
  have e1 : h.dual.gt a b = false := by rw [dual_gt v]; exact Bool.eq_false_iff.2 h1
  have e2 : h.gt a b = false := Bool.eq_false_iff.2 h2
  have e3 : h.dual.le a b = h.le a b := by
    rw [dual_le v, ge_eq_le, Bool.eq_iff_iff, le_iff, le_iff, eq_comm (a := b)]
    exact or_congr_right ⟨fun hx => absurd hx h2, fun hx => absurd hx h1⟩
  simp only [e1, e2, Bool.false_eq_true, if_false, e3, dual_smallestCommon v, dual_intervalCardIn v, dual_future, dual_past]
  by_cases hab : a = b
  · subst hab
    cases S with
    | none => rfl
    | some t => by_cases ht : a ∈ t <;> simp [ht]
  · have : h.le a b = false := by rw [Bool.eq_false_iff, ne_eq, le_iff]; tauto
    simp only [this, Bool.false_eq_true, if_false]

theorem dual_distWhile (it : Iter) (v : h.Valid) (C : Finset EId) (ac : List EId) (z r : Bool) : ∀ (fuel : ℕ) (s t : Finset EId) (D : DMat), h.dual.distWhile it C ac z r fuel s t D = h.distWhile it C ac z r fuel s t D
  | 0, _, _, _ => rfl
  | fuel + 1, s, t, D => by
    have e : h.dual.distNear C ac z t D = h.distNear C ac z t D := by
      unfold Heap.distNear
      simp only [dual_smallestIntervalCard v]
    have e2 : h.dual.layers it t (-1) (some 1) = h.layers it t (-1) (some 1) :=
      dual_layers it v t (-1) (some 1) (.inr ⟨by decide, by decide⟩)
    simp only [Heap.distWhile, e, e2]
    split
    · split
      · rfl
      · split
        · rfl
        · exact dual_distWhile it v C ac z r fuel _ _ _
    · rfl

theorem dual_distanceMatrix (it : Iter) (v : h.Valid) (C : Finset EId) (ac : List EId) (c : String) (r : Bool) : h.dual.distanceMatrix it C ac c r = h.distanceMatrix it C ac c r := by
  have e2 : h.dual.layers it ac.toFinset (-1) (some 1) = h.layers it ac.toFinset (-1) (some 1) :=
    dual_layers it v _ (-1) (some 1) (.inr ⟨by decide, by decide⟩)
  unfold Heap.distanceMatrix
  rw [e2, dual_distWhile it v]
  rfl

theorem dual_antipaths (it : Iter) (v : h.Valid) (C : Finset EId) (depth : ℕ) (a b : EId) (l : List EId) (D : Option DMat) : h.dual.antipaths it C depth a b l D = h.antipaths it C depth a b l D := by
  unfold Heap.antipaths
  rw [dual_isSpacelikeTo, dual_distanceMatrix it v]

/-! ## Components, causets, central antichains -/

theorem dual_disjointInner (it : Iter) (v : h.Valid) (R : Finset EId) : ∀ (fuel : ℕ) (s : Finset EId) (n : ℕ), h.dual.disjointInner it R fuel s n = h.disjointInner it R fuel s n
  | 0, _, _ => rfl
  | fuel + 1, s, n => by simp only [Heap.disjointInner, dual_coneOf it v, dual_disjointInner it v R fuel]

theorem dual_disjointLoop (it : Iter) (v : h.Valid) : ∀ (fuel : ℕ) (R : Finset EId), h.dual.disjointLoop it fuel R = h.disjointLoop it fuel R
  | 0, _ => rfl
  | fuel + 1, R => by simp only [Heap.disjointLoop, dual_disjointInner it v, dual_disjointLoop it v fuel]

theorem dual_disjointSets (it : Iter) (v : h.Valid) (C : Finset EId) (o : Option (Finset EId)) : h.dual.disjointSets it C o = h.disjointSets it C o :=
  dual_disjointLoop it v _ _

theorem dual_isDisjoint (it : Iter) (v : h.Valid) (C : Finset EId) (o : Option (Finset EId)) : h.dual.isDisjoint it C o = h.isDisjoint it C o := by
  unfold Heap.isDisjoint; rw [dual_disjointSets it v]

theorem dual_initLoop (it : Iter) (v : h.Valid) : ∀ (fuel : ℕ) (s : Finset EId), h.dual.initLoop it fuel s = h.initLoop it fuel s
  | 0, _ => rfl
  | fuel + 1, s => by simp only [Heap.initLoop, dual_coneOf it v, dual_initLoop it v fuel]

theorem dual_causetInit (it : Iter) (v : h.Valid) (s : Finset EId) : h.dual.causetInit it s = h.causetInit it s := dual_initLoop it v _ s

theorem dual_imbalance (d : ℤ) (e : EId) : h.dual.imbalance (-d) e = h.imbalance d e := by
  unfold Heap.imbalance
  rw [dual_pastCard, dual_futureCard, ← Int.natAbs_neg]
  congr 1; ring

theorem dual_centralInner (d : ℤ) (n : ℕ) : ∀ (l : List EId) (s : Finset EId), h.dual.centralInner (-d) n l s = h.centralInner d n l s
  | [], _ => rfl
  | e :: es, s => by simp only [Heap.centralInner, dual_imbalance, dual_cone, dual_centralInner d n es]

theorem dual_centralDiff (o : Option EId) : h.dual.centralDiff o = -h.centralDiff o := by
  cases o
  · rfl
  · simp [Heap.centralDiff, dual_pastCard, dual_futureCard]

theorem dual_centralAntichain (it : Iter) (C : Finset EId) (o : Option EId) : h.dual.centralAntichain it C o = h.centralAntichain it C o := by
  unfold Heap.centralAntichain
  simp only [dual_centralDiff, dual_centralInner]
  have : h.dual.imbalance (-h.centralDiff o) = h.imbalance (h.centralDiff o) := funext fun e => dual_imbalance _ e
  rw [this]

/-! ## Matrices -/

theorem matT_square (l : List EId) (F : EId → EId → Bool) : matT (l.map (fun a => l.map (fun b => F a b))) = l.map (fun a => l.map (fun b => F b a)) := by
  have e : ∀ i j, i < l.length → j < l.length → matEntry (l.map (fun a => l.map (fun b => F a b))) i j = F (l.getD i 0) (l.getD j 0) := by
    intro i j hi hj
    simp [matEntry, List.getD_eq_getElem?_getD, hi, hj]
  apply List.ext_getElem
  · simp [matT]
  · intro i h1 h2
    have hi : i < l.length := by simpa using h2
    apply List.ext_getElem
    · simp [matT]
    · intro j h3 h4
      have hj : j < l.length := by simpa using h4
      simp only [matT, List.getElem_map, List.getElem_range]
      rw [e j i hj hi]
      simp [List.getD_eq_getElem?_getD, hi, hj]

theorem dual_pastMatrixOf (v : h.Valid) (l : List EId) : h.dual.pastMatrixOf l = matT (h.pastMatrixOf l) := by
  unfold Heap.pastMatrixOf
  rw [matT_square]
  exact List.map_congr_left fun a _ => List.map_congr_left fun b _ => by rw [dual_gt v]; rfl

end Causets
