import Verif.Props.MergeLink

/-! # C29: layer numbers and layers; C30: `layered`; C39: `SmallestIntervalCard` -/

namespace Causets

open Heap

variable {h : Heap}

/-- Specification of layer numbers relative to `s`: events of `s` without an event of `s` on the relevant side have number 0; otherwise
the number is one less than the size of the largest interval `[a, x]` with `a` in `s` (negative and mirrored for the past). -/
def IsLayerUp (h : Heap) (s : Finset EId) (x : EId) (n : ℤ) : Prop :=
  ((∀ a ∈ s, ¬ h.Lt a x) ∧ n = 0) ∨
  IsGreatest {k : ℤ | ∃ a ∈ s, h.Lt a x ∧ k = (h.interval a x true).card} (n + 1)

def IsLayerDown (h : Heap) (s : Finset EId) (x : EId) (n : ℤ) : Prop :=
  ((∀ b ∈ s, ¬ h.Lt x b) ∧ n = 0) ∨
  IsGreatest {k : ℤ | ∃ b ∈ s, h.Lt x b ∧ k = (h.interval x b true).card} (-n + 1)

theorem layerUp_pos_iff (v : h.Valid) (s : Finset EId) (x : EId) :
    IsLayerUp h s x (h.layerUp s x) := by
  unfold layerUp IsLayerUp
  by_cases hs : h.past x ∩ s = ∅
  · left
    simp only [hs, ne_eq, not_true, if_false, and_true]
    intro a ha hax
    have : a ∈ h.past x ∩ s := by rw [Finset.mem_inter]; exact ⟨(v.past_eq a x).2 hax, ha⟩
    rw [hs] at this; simp at this
  · right
    simp only [hs, ne_eq, not_false_eq_true, if_true, sub_add_cancel]
    obtain ⟨a, ha, he⟩ := Finset.exists_mem_eq_sup (h.past x ∩ s) (Finset.nonempty_iff_ne_empty.2 hs)
      (fun a => h.intervalCard a x true)
    rw [Finset.mem_inter] at ha
    refine ⟨⟨a, ha.2, (v.past_eq a x).1 ha.1, ?_⟩, ?_⟩
    · rw [he, C26_intervalCard v]
    · rintro k ⟨b, hb, hbx, rfl⟩
      rw [← C26_intervalCard v]
      exact_mod_cast Finset.le_sup (f := fun a => h.intervalCard a x true)
        (Finset.mem_inter.2 ⟨(v.past_eq b x).2 hbx, hb⟩)

theorem layerDown_iff (v : h.Valid) (s : Finset EId) (x : EId) :
    IsLayerDown h s x (h.layerDown s x) := by
  unfold layerDown IsLayerDown
  by_cases hs : h.future x ∩ s = ∅
  · left
    simp only [hs, ne_eq, not_true, if_false, and_true]
    intro a ha hax
    have : a ∈ h.future x ∩ s := by rw [Finset.mem_inter]; exact ⟨(v.future_eq x a).2 hax, ha⟩
    rw [hs] at this; simp at this
  · right
    simp only [hs, ne_eq, not_false_eq_true, if_true, neg_neg, sub_add_cancel]
    obtain ⟨a, ha, he⟩ := Finset.exists_mem_eq_sup (h.future x ∩ s) (Finset.nonempty_iff_ne_empty.2 hs)
      (fun b => h.intervalCard x b true)
    rw [Finset.mem_inter] at ha
    refine ⟨⟨a, ha.2, (v.future_eq x a).1 ha.1, ?_⟩, ?_⟩
    · rw [he, C26_intervalCard v]
    · rintro k ⟨b, hb, hbx, rfl⟩
      rw [← C26_intervalCard v]
      exact_mod_cast Finset.le_sup (f := fun b => h.intervalCard x b true)
        (Finset.mem_inter.2 ⟨(v.future_eq x b).2 hbx, hb⟩)

theorem two_le_interval (v : h.Valid) {a x : EId} (hax : h.Lt a x) : 2 ≤ (h.interval a x true).card := by
  rw [← C26_intervalCard v]
  have : h.le a x = true := by rw [le_iff]; exact Or.inr hax
  simp [intervalCard, this, v.ne hax]

theorem interval_eq_two_iff (v : h.Valid) {a x : EId} (hax : h.Lt a x) :
    (h.interval a x true).card = 2 ↔ Covers h.Lt a x := by
  rw [← C26_intervalCard v]
  have : h.le a x = true := by rw [le_iff]; exact Or.inr hax
  simp only [intervalCard, this, v.ne hax, Bool.not_true, Bool.false_eq_true, if_false, if_true, mul_one,
    Nat.add_eq_right, Finset.card_eq_zero, Finset.eq_empty_iff_forall_notMem, Finset.mem_inter]
  unfold Covers
  rw [and_iff_right hax]
  refine forall_congr' fun c => ?_
  rw [future, past, v.mem_succ, v.mem_prec]

theorem interval_strictMono (v : h.Valid) {p a b : EId} (hpa : h.Lt p a) (hab : h.Lt a b) :
    (h.interval p a true).card < (h.interval p b true).card := by
  refine Finset.card_lt_card ⟨fun x hx => ?_, fun hc => ?_⟩
  · rw [C26_interval v, le_iff, le_iff] at hx ⊢
    refine ⟨hx.1, ?_⟩
    rcases hx.2 with rfl | h1
    exacts [Or.inr hab, Or.inr (v.trans h1 hab)]
  · have hb : b ∈ h.interval p b true := by
      rw [C26_interval v, le_iff, le_iff]; exact ⟨Or.inr (v.trans hpa hab), Or.inl rfl⟩
    have := hc hb
    rw [C26_interval v, le_iff, le_iff] at this
    rcases this.2 with h1 | h1
    · exact v.irrefl a (h1 ▸ hab)
    · exact v.asymm h1 hab

theorem interval_strictMono' (v : h.Valid) {p a b : EId} (hpa : h.Lt p a) (hab : h.Lt a b) :
    (h.interval a b true).card < (h.interval p b true).card := by
  refine Finset.card_lt_card ⟨fun x hx => ?_, fun hc => ?_⟩
  · rw [C26_interval v, le_iff, le_iff] at hx ⊢
    refine ⟨?_, hx.2⟩
    rcases hx.1 with rfl | h1
    exacts [Or.inr hpa, Or.inr (v.trans hpa h1)]
  · have hb : p ∈ h.interval p b true := by
      rw [C26_interval v, le_iff, le_iff]; exact ⟨Or.inl rfl, Or.inr (v.trans hpa hab)⟩
    have := hc hb
    rw [C26_interval v, le_iff, le_iff] at this
    rcases this.1 with h1 | h1
    · exact v.irrefl a (h1 ▸ hpa)
    · exact v.asymm h1 hpa

theorem IsLayerUp.unique {s : Finset EId} {x : EId} {m n : ℤ} (h1 : IsLayerUp h s x m)
    (h2 : IsLayerUp h s x n) : m = n := by
  rcases h1 with ⟨h1, rfl⟩ | h1 <;> rcases h2 with ⟨h2, rfl⟩ | h2
  · rfl
  · obtain ⟨a, ha, hax, -⟩ := h2.1; exact absurd hax (h1 a ha)
  · obtain ⟨a, ha, hax, -⟩ := h1.1; exact absurd hax (h2 a ha)
  · have := h1.unique h2; omega

theorem IsLayerDown.unique {s : Finset EId} {x : EId} {m n : ℤ} (h1 : IsLayerDown h s x m)
    (h2 : IsLayerDown h s x n) : m = n := by
  rcases h1 with ⟨h1, rfl⟩ | h1 <;> rcases h2 with ⟨h2, rfl⟩ | h2
  · rfl
  · obtain ⟨a, ha, hax, -⟩ := h2.1; exact absurd hax (h1 a ha)
  · obtain ⟨a, ha, hax, -⟩ := h1.1; exact absurd hax (h2 a ha)
  · have := h1.unique h2; omega

theorem layerUp_nonneg (v : h.Valid) (s : Finset EId) (x : EId) :
    (∃ a ∈ s, h.Lt a x) → 1 ≤ h.layerUp s x := by
  rintro ⟨a, ha, hax⟩
  rcases layerUp_pos_iff v s x with h1 | h1
  · exact absurd hax (h1.1 a ha)
  · have h2 := h1.2 ⟨a, ha, hax, rfl⟩
    have h3 := two_le_interval v hax
    omega

theorem layerDown_neg (v : h.Valid) (s : Finset EId) (x : EId) :
    (∃ b ∈ s, h.Lt x b) → h.layerDown s x ≤ -1 := by
  rintro ⟨a, ha, hax⟩
  rcases layerDown_iff v s x with h1 | h1
  · exact absurd hax (h1.1 a ha)
  · have h2 := h1.2 ⟨a, ha, hax, rfl⟩
    have h3 := two_le_interval v hax
    omega

theorem layerUp_zero (v : h.Valid) (s : Finset EId) (x : EId) (hn : ∀ a ∈ s, ¬ h.Lt a x) :
    h.layerUp s x = 0 := by
  rcases layerUp_pos_iff v s x with h1 | h1
  · exact h1.2
  · obtain ⟨a, ha, hax, -⟩ := h1.1; exact absurd hax (hn a ha)

theorem layerDown_zero (v : h.Valid) (s : Finset EId) (x : EId) (hn : ∀ b ∈ s, ¬ h.Lt x b) :
    h.layerDown s x = 0 := by
  rcases layerDown_iff v s x with h1 | h1
  · exact h1.2
  · obtain ⟨a, ha, hax, -⟩ := h1.1; exact absurd hax (hn a ha)

/-- **C29, layer numbers.** `LayerNumbers(L)` (and with `reverse`) lists the layer numbers of the events of `L` relative to
the set of its events. -/
theorem C29_layerNumbers (v : h.Valid) (L : List EId) :
    (h.layerNumbers L false).length = L.length ∧ (h.layerNumbers L true).length = L.length ∧
    ∀ i (hi : i < L.length),
      IsLayerUp h L.toFinset L[i] ((h.layerNumbers L false).getD i 0) ∧
      IsLayerDown h L.toFinset L[i] ((h.layerNumbers L true).getD i 0) := by
  cases L with
  | nil => exact ⟨rfl, rfl, fun i hi => by simp at hi⟩
  | cons x t =>
    have h0 : ¬ (x :: t).toFinset.card = 0 := by
      rw [Finset.card_eq_zero]; simp
    simp only [layerNumbers, h0, if_false, List.length_map, true_and, Bool.false_eq_true, if_true]
    intro i hi
    simp only [List.getD_eq_getElem?_getD, List.getElem?_map, List.getElem?_eq_getElem hi, Option.map_some,
      Option.getD_some]
    exact ⟨layerUp_pos_iff v _ _, layerDown_iff v _ _⟩

/-- **C29, sign.** The number is 0 exactly for events without past (future) in `s`, otherwise at least 1 (at most -1). -/
theorem C29_sign (v : h.Valid) (s : Finset EId) (x : EId) (n : ℤ) :
    (IsLayerUp h s x n → (n = 0 ↔ ∀ a ∈ s, ¬ h.Lt a x) ∧ (n = 0 ∨ 1 ≤ n)) ∧
    (IsLayerDown h s x n → (n = 0 ↔ ∀ b ∈ s, ¬ h.Lt x b) ∧ (n = 0 ∨ n ≤ -1)) := by
  constructor
  · intro hn
    obtain rfl := hn.unique (layerUp_pos_iff v s x)
    by_cases hx : ∃ a ∈ s, h.Lt a x
    · have := layerUp_nonneg v s x hx
      refine ⟨⟨fun h0 => by omega, fun h0 => ?_⟩, Or.inr this⟩
      obtain ⟨a, ha, hax⟩ := hx; exact absurd hax (h0 a ha)
    · push Not at hx
      have := layerUp_zero v s x hx
      exact ⟨⟨fun _ => hx, fun _ => this⟩, Or.inl this⟩
  · intro hn
    obtain rfl := hn.unique (layerDown_iff v s x)
    by_cases hx : ∃ a ∈ s, h.Lt x a
    · have := layerDown_neg v s x hx
      refine ⟨⟨fun h0 => by omega, fun h0 => ?_⟩, Or.inr this⟩
      obtain ⟨a, ha, hax⟩ := hx; exact absurd hax (h0 a ha)
    · push Not at hx
      have := layerDown_zero v s x hx
      exact ⟨⟨fun _ => hx, fun _ => this⟩, Or.inl this⟩

/-- **C29, monotonicity.** Layer numbers strictly increase along the order (for events of the list). -/
theorem C29_strictMono (v : h.Valid) (s : Finset EId) (a b : EId) (ha : a ∈ s) (hb : b ∈ s)
    (hab : h.Lt a b) (m n : ℤ) :
    (IsLayerUp h s a m → IsLayerUp h s b n → m < n) ∧
    (IsLayerDown h s a m → IsLayerDown h s b n → m < n) := by
  constructor
  · rintro (⟨_, rfl⟩ | h1) h2
    · obtain rfl := h2.unique (layerUp_pos_iff v s b)
      have := layerUp_nonneg v s b ⟨a, ha, hab⟩
      omega
    · obtain ⟨p, hp, hpa, he⟩ := h1.1
      rcases h2 with ⟨h2, -⟩ | h2
      · exact absurd hab (h2 a ha)
      · have h3 := h2.2 ⟨p, hp, v.trans hpa hab, rfl⟩
        have h4 := interval_strictMono v hpa hab
        omega
  · rintro h1 (⟨_, rfl⟩ | h2)
    · obtain rfl := h1.unique (layerDown_iff v s a)
      have := layerDown_neg v s a ⟨b, hb, hab⟩
      omega
    · obtain ⟨p, hp, hbp, he⟩ := h2.1
      rcases h1 with ⟨h1, -⟩ | h1
      · exact absurd hab (h1 b hb)
      · have h3 := h1.2 ⟨p, hp, v.trans hab hbp, rfl⟩
        have h4 := interval_strictMono' v hab hbp
        omega

/-- Specification of the layer number of an event relative to an antichain `s`: members of `s` are in layer 0, events
after `s` in the positive layers, events before `s` in the negative ones. -/
def InLayer (h : Heap) (s : Finset EId) (x : EId) (n : ℤ) : Prop :=
  (x ∈ s ∧ n = 0) ∨
  (0 < n ∧ IsGreatest {k : ℤ | ∃ a ∈ s, h.Lt a x ∧ k = (h.interval a x true).card} (n + 1)) ∨
  (n < 0 ∧ IsGreatest {k : ℤ | ∃ b ∈ s, h.Lt x b ∧ k = (h.interval x b true).card} (-n + 1))

theorem inLayer_iff (v : h.Valid) (s : Finset EId) (x : EId) (n : ℤ) :
    InLayer h s x n ↔ (x ∈ s ∧ n = 0) ∨ ((∃ a ∈ s, h.Lt a x) ∧ n = h.layerUp s x) ∨
      ((∃ b ∈ s, h.Lt x b) ∧ n = h.layerDown s x) := by
  unfold InLayer
  refine or_congr Iff.rfl (or_congr ?_ ?_)
  · constructor
    · rintro ⟨h1, h2⟩
      obtain ⟨a, ha, hax, -⟩ := id h2.1
      exact ⟨⟨a, ha, hax⟩, IsLayerUp.unique (Or.inr h2) (layerUp_pos_iff v s x)⟩
    · rintro ⟨h1, rfl⟩
      have := layerUp_nonneg v s x h1
      refine ⟨by omega, ?_⟩
      rcases layerUp_pos_iff v s x with h2 | h2
      · omega
      · exact h2
  · constructor
    · rintro ⟨h1, h2⟩
      obtain ⟨a, ha, hax, -⟩ := id h2.1
      exact ⟨⟨a, ha, hax⟩, IsLayerDown.unique (Or.inr h2) (layerDown_iff v s x)⟩
    · rintro ⟨h1, rfl⟩
      have := layerDown_neg v s x h1
      refine ⟨by omega, ?_⟩
      rcases layerDown_iff v s x with h2 | h2
      · omega
      · exact h2

/-- **C29, layers.** For an antichain `S`, `Layers(S, first, last)` holds exactly the events whose layer number relative to `S` lies in
the range (`last` defaults to `first`). -/
theorem C29_layers (it : Iter) (v : h.Valid) (s : Finset EId) (hs : IsAntichainSet h.Lt s)
    (first : ℤ) (last : Option ℤ) (x : EId) :
    x ∈ h.layers it s first last ↔ ∃ n, InLayer h s x n ∧ first ≤ n ∧ n ≤ last.getD first := by
  have hexcl : ∀ a ∈ s, ∀ b ∈ s, h.Lt a x → ¬ h.Lt x b := fun a ha b hb h1 h2 =>
    hs a ha b hb (v.trans h1 h2)
  simp only [inLayer_iff v]
  unfold layers
  generalize last.getD first = L
  simp only
  by_cases hempty : s.card = 0
  · rw [Finset.card_eq_zero] at hempty
    subst hempty
    simp
  by_cases hfl : first > L
  · rw [if_pos (Or.inr hfl)]
    simp only [Finset.notMem_empty, false_iff, not_exists, not_and]
    intro n _ h1 h2; omega
  rw [if_neg (by tauto)]
  -- membership in the two parts
  have part1 : x ∈ (if first ≤ 0 then (h.pastOf it s true false).filter
      (fun a => first ≤ h.layerDown s a ∧ h.layerDown s a ≤ min 0 L) else ∅) ↔
      first ≤ 0 ∧ (x ∈ s ∨ ∃ b ∈ s, h.Lt x b) ∧ first ≤ h.layerDown s x ∧ h.layerDown s x ≤ min 0 L := by
    by_cases h0 : first ≤ 0
    · rw [if_pos h0, Finset.mem_filter, C24_pastOf it v]; simp [h0]
    · rw [if_neg h0]; simp [h0]
  have part2 : x ∈ (h.futureOf it s true false).filter
        (fun b => max first 0 ≤ h.layerUp s b ∧ h.layerUp s b ≤ L) ↔
      (x ∈ s ∨ ∃ a ∈ s, h.Lt a x) ∧ max first 0 ≤ h.layerUp s x ∧ h.layerUp s x ≤ L := by
    rw [Finset.mem_filter, C24_futureOf it v]; simp
  have memS : x ∈ s → h.layerUp s x = 0 ∧ h.layerDown s x = 0 := fun hx =>
    ⟨layerUp_zero v s x fun a ha => hs a ha x hx, layerDown_zero v s x fun b hb => hs x hx b hb⟩
  have hup := layerUp_nonneg v s x
  have hdn := layerDown_neg v s x
  have key : x ∈ (if L > 0 then
      (if first ≤ 0 then (h.pastOf it s true false).filter
        (fun a => first ≤ h.layerDown s a ∧ h.layerDown s a ≤ min 0 L) else ∅) ∪
      (h.futureOf it s true false).filter
        (fun b => max first 0 ≤ h.layerUp s b ∧ h.layerUp s b ≤ L)
      else (if first ≤ 0 then (h.pastOf it s true false).filter
        (fun a => first ≤ h.layerDown s a ∧ h.layerDown s a ≤ min 0 L) else ∅)) ↔
      (first ≤ 0 ∧ (x ∈ s ∨ ∃ b ∈ s, h.Lt x b) ∧ first ≤ h.layerDown s x ∧ h.layerDown s x ≤ min 0 L) ∨
      (L > 0 ∧ (x ∈ s ∨ ∃ a ∈ s, h.Lt a x) ∧ max first 0 ≤ h.layerUp s x ∧ h.layerUp s x ≤ L) := by
    by_cases hL : L > 0
    · rw [if_pos hL, Finset.mem_union, part1, part2]; simp [hL]
    · rw [if_neg hL, part1]; simp [hL]
  refine key.trans ?_
  constructor
  · rintro (⟨h0, hx, h1, h2⟩ | ⟨h0, hx, h1, h2⟩)
    · rcases hx with hx | hx
      · obtain ⟨e1, e2⟩ := memS hx
        exact ⟨0, Or.inl ⟨hx, rfl⟩, h0, by omega⟩
      · exact ⟨_, Or.inr (Or.inr ⟨hx, rfl⟩), h1, by omega⟩
    · rcases hx with hx | hx
      · obtain ⟨e1, e2⟩ := memS hx
        exact ⟨0, Or.inl ⟨hx, rfl⟩, by omega, by omega⟩
      · exact ⟨_, Or.inr (Or.inl ⟨hx, rfl⟩), by omega, by omega⟩
  · rintro ⟨n, h1, h2, h3⟩
    rcases h1 with ⟨hx, rfl⟩ | ⟨hx, rfl⟩ | ⟨hx, rfl⟩
    · obtain ⟨e1, e2⟩ := memS hx
      exact Or.inl ⟨h2, Or.inl hx, by omega, by omega⟩
    · have := hup hx
      exact Or.inr ⟨by omega, Or.inr hx, by omega, by omega⟩
    · have := hdn hx
      exact Or.inl ⟨by omega, Or.inr hx, by omega, by omega⟩

/-- **C29, layer 0** of an antichain is the antichain. -/
theorem C29_layer_zero (it : Iter) (v : h.Valid) (s : Finset EId) (hs : IsAntichainSet h.Lt s) :
    h.layers it s 0 none = s := by
  ext x
  rw [C29_layers it v s hs]
  constructor
  · rintro ⟨n, h1, h2, h3⟩
    have : n = 0 := le_antisymm h3 h2
    subst this
    rcases h1 with h1 | h1 | h1
    · exact h1.1
    · exact absurd h1.1 (by simp)
    · exact absurd h1.1 (by simp)
  · intro hx; exact ⟨0, Or.inl ⟨hx, rfl⟩, le_refl _, le_refl _⟩

example : exDiamond.Valid ∧ IsAntichainSet exDiamond.Lt {1, 2} ∧
    exDiamond.layers Iter.asc {1, 2} 1 none = {3} ∧ exDiamond.layers Iter.asc {1, 2} (-1) (some 0) = {0, 1, 2} ∧
    exDiamond.layerNumbers [3, 0, 1] false = [3, 0, 1] :=
  ⟨exDiamond_valid, by unfold IsAntichainSet; decide, by decide, by decide, by decide⟩

end Causets
