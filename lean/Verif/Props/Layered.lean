import Verif.Props.Layers
import Mathlib.Data.Finset.Powerset

/-! # C30: `layered`; C39: `SmallestIntervalCard` -/

namespace Causets

open Heap

variable {h : Heap}

/-- The height of `x` in `s` is `n`: the longest chain of events of `s` before `x` has `n` events. -/
def IsHeight (lt : ℕ → ℕ → Prop) (s : Finset ℕ) (x n : ℕ) : Prop :=
  IsGreatest {k | ∃ c ⊆ s, IsChainSet lt c ∧ (∀ y ∈ c, lt y x) ∧ c.card = k} n

section Heights

variable {lt : ℕ → ℕ → Prop}

open Classical in
noncomputable def ht (lt : ℕ → ℕ → Prop) (s : Finset ℕ) (x : ℕ) : ℕ :=
  (s.powerset.filter (fun c => IsChainSet lt c ∧ ∀ y ∈ c, lt y x)).sup Finset.card

theorem ht_isHeight (lt : ℕ → ℕ → Prop) (s : Finset ℕ) (x : ℕ) : IsHeight lt s x (ht lt s x) := by
  classical
  constructor
  · obtain ⟨c, hc, he⟩ := Finset.exists_mem_eq_sup
      (s.powerset.filter (fun c => IsChainSet lt c ∧ ∀ y ∈ c, lt y x))
      ⟨∅, by rw [Finset.mem_filter]; exact ⟨by simp, fun a ha => by simp at ha, fun a ha => by simp at ha⟩⟩
      Finset.card
    rw [Finset.mem_filter, Finset.mem_powerset] at hc
    refine ⟨c, hc.1, hc.2.1, hc.2.2, ?_⟩
    unfold ht
    convert he.symm
  · rintro k ⟨c, h1, h2, h3, rfl⟩
    unfold ht
    have : c ∈ s.powerset.filter (fun c => IsChainSet lt c ∧ ∀ y ∈ c, lt y x) := by
      rw [Finset.mem_filter, Finset.mem_powerset]; exact ⟨h1, h2, h3⟩
    convert Finset.le_sup (f := Finset.card) this

theorem isHeight_iff (s : Finset ℕ) (x n : ℕ) : IsHeight lt s x n ↔ n = ht lt s x :=
  ⟨fun h1 => h1.unique (ht_isHeight lt s x), fun h1 => h1 ▸ ht_isHeight lt s x⟩

theorem ht_lt (o : StrictOrd lt) {s : Finset ℕ} {x y : ℕ} (hy : y ∈ s) (hyx : lt y x) :
    ht lt s y < ht lt s x := by
  obtain ⟨c, h1, h2, h3, h4⟩ := (ht_isHeight lt s y).1
  have hyc : y ∉ c := fun hc => o.irrefl y (h3 y hc)
  have hup := (ht_isHeight lt s x).2
  have := hup (a := (insert y c).card) ⟨insert y c, ?_, ?_, ?_, rfl⟩
  · rw [Finset.card_insert_of_notMem hyc] at this; omega
  · intro z hz
    rcases Finset.mem_insert.1 hz with rfl | hz
    exacts [hy, h1 hz]
  · intro a ha b hb hab
    rcases Finset.mem_insert.1 ha with ha1 | ha1 <;> rcases Finset.mem_insert.1 hb with hb1 | hb1
    · exact absurd (ha1.trans hb1.symm) hab
    · rw [ha1]; exact Or.inr (h3 b hb1)
    · rw [hb1]; exact Or.inl (h3 a ha1)
    · exact h2 a ha1 b hb1 hab
  · intro z hz
    rcases Finset.mem_insert.1 hz with rfl | hz
    exacts [hyx, o.trans _ _ _ (h3 z hz) hyx]

theorem chain_greatest (o : StrictOrd lt) {c : Finset ℕ} (hc : IsChainSet lt c) (hne : c.Nonempty) :
    ∃ m ∈ c, ∀ z ∈ c, z ≠ m → lt z m := by
  classical
  obtain ⟨m, hm, hmax⟩ := Finset.exists_max_image c (fun m => (c.filter (fun y => lt y m)).card) hne
  refine ⟨m, hm, fun z hz hzm => ?_⟩
  rcases hc z hz m hm hzm with h1 | h1
  · exact h1
  · exfalso
    have h2 := hmax z hz
    have : (c.filter (fun y => lt y m)).card < (c.filter (fun y => lt y z)).card := by
      refine Finset.card_lt_card ⟨fun y hy => ?_, fun hs => ?_⟩
      · rw [Finset.mem_filter] at hy ⊢
        exact ⟨hy.1, o.trans _ _ _ hy.2 h1⟩
      · have := hs (Finset.mem_filter.2 ⟨hm, h1⟩)
        exact o.irrefl m (Finset.mem_filter.1 this).2
    omega

theorem ht_pred (o : StrictOrd lt) {s : Finset ℕ} {x n : ℕ} (hx : ht lt s x = n + 1) :
    ∃ y ∈ s, lt y x ∧ ht lt s y = n := by
  obtain ⟨c, h1, h2, h3, h4⟩ := (ht_isHeight lt s x).1
  rw [hx] at h4
  obtain ⟨m, hm, hmax⟩ := chain_greatest o h2 (Finset.card_pos.1 (by omega))
  refine ⟨m, h1 hm, h3 m hm, ?_⟩
  have hlt := ht_lt o (h1 hm) (h3 m hm)
  have hup := (ht_isHeight lt s m).2
  have := hup (a := (c.erase m).card) ⟨c.erase m, ?_, ?_, ?_, rfl⟩
  · rw [Finset.card_erase_of_mem hm] at this; omega
  · exact (Finset.erase_subset _ _).trans h1
  · exact fun a ha b hb => h2 a (Finset.mem_of_mem_erase ha) b (Finset.mem_of_mem_erase hb)
  · exact fun z hz => hmax z (Finset.mem_of_mem_erase hz) (Finset.ne_of_mem_erase hz)

/-- events of `s` of height `k` -/
noncomputable def level (lt : ℕ → ℕ → Prop) (s : Finset ℕ) (k : ℕ) : Finset ℕ :=
  s.filter (fun x => ht lt s x = k)

theorem mem_level {s : Finset ℕ} {k x : ℕ} : x ∈ level lt s k ↔ x ∈ s ∧ ht lt s x = k := by
  rw [level, Finset.mem_filter]

theorem level_antichain (o : StrictOrd lt) (s : Finset ℕ) (k : ℕ) :
    IsAntichainSet lt (level lt s k) := by
  intro a ha b hb hab
  rw [mem_level] at ha hb
  have := ht_lt o ha.1 hab
  omega

theorem ht_reach (o : StrictOrd lt) {s : Finset ℕ} {k : ℕ} : ∀ {x : ℕ}, x ∈ s → k ≤ ht lt s x →
    ∃ y ∈ s, (y = x ∨ lt y x) ∧ ht lt s y = k := by
  intro x hx hk
  obtain ⟨d, hd⟩ := Nat.exists_eq_add_of_le hk
  induction d generalizing x with
  | zero => exact ⟨x, hx, Or.inl rfl, by omega⟩
  | succ d ih =>
    obtain ⟨y, hy, hyx, hh⟩ := ht_pred o (s := s) (x := x) (n := k + d) (by omega)
    obtain ⟨z, hz, h1, h2⟩ := ih hy (by omega) hh
    refine ⟨z, hz, Or.inr ?_, h2⟩
    rcases h1 with rfl | h1
    exacts [hyx, o.trans _ _ _ h1 hyx]

theorem level_zero (o : StrictOrd lt) (s : Finset ℕ) (x : ℕ) :
    x ∈ level lt s 0 ↔ x ∈ s ∧ ∀ y ∈ s, ¬ lt y x := by
  rw [mem_level]
  refine and_congr_right fun _ => ⟨fun h0 y hy hyx => ?_, fun hn => ?_⟩
  · have := ht_lt o hy hyx; omega
  · by_contra hne
    obtain ⟨n, hn'⟩ := Nat.exists_eq_succ_of_ne_zero hne
    obtain ⟨y, hy, hyx, -⟩ := ht_pred o hn'
    exact hn y hy hyx

theorem level_succ (o : StrictOrd lt) {s : Finset ℕ} (hs : OrdConvex lt s) (k x : ℕ) :
    x ∈ level lt s (k + 1) ↔ x ∈ s ∧ (∃ a ∈ level lt s k, lt a x) ∧
      ∀ a ∈ level lt s k, lt a x → Covers lt a x := by
  rw [mem_level]
  refine and_congr_right fun hx => ⟨fun hk => ⟨?_, fun a ha hax => ⟨hax, fun c hc => ?_⟩⟩, ?_⟩
  · obtain ⟨y, hy, hyx, hh⟩ := ht_pred o hk
    exact ⟨y, mem_level.2 ⟨hy, hh⟩, hyx⟩
  · rw [mem_level] at ha
    have hcs := hs a ha.1 x hx c hc.1 hc.2
    have h1 := ht_lt o ha.1 hc.1
    have h2 := ht_lt o hcs hc.2
    omega
  · rintro ⟨⟨a, ha, hax⟩, hcov⟩
    rw [mem_level] at ha
    have h1 := ht_lt o ha.1 hax
    by_contra hne
    obtain ⟨n, hn⟩ := Nat.exists_eq_add_of_lt (show k + 1 < ht lt s x by omega)
    obtain ⟨w, hw, hwx, hwh⟩ := ht_pred o (n := k + 1 + n) (by omega)
    obtain ⟨w', hw', h2, h3⟩ := ht_reach o hw (k := k + 1) (by omega)
    have hw'x : lt w' x := by
      rcases h2 with rfl | h2
      exacts [hwx, o.trans _ _ _ h2 hwx]
    obtain ⟨b, hb, hbw, hbh⟩ := ht_pred o h3
    exact (hcov b (mem_level.2 ⟨hb, hbh⟩) (o.trans _ _ _ hbw hw'x)).2 w' ⟨hbw, hw'x⟩

end Heights

theorem layers_one (it : Iter) (v : h.Valid) (l : Finset EId) (hl : IsAntichainSet h.Lt l) (x : EId) :
    x ∈ h.layers it l 1 none ↔ (∃ a ∈ l, h.Lt a x) ∧ ∀ a ∈ l, h.Lt a x → Covers h.Lt a x := by
  rw [C29_layers it v l hl]
  have : (∃ n, InLayer h l x n ∧ 1 ≤ n ∧ n ≤ (none : Option ℤ).getD 1) ↔ InLayer h l x 1 :=
    ⟨fun ⟨n, h1, h2, h3⟩ => by
      have : n = 1 := le_antisymm h3 h2
      exact this ▸ h1, fun h1 => ⟨1, h1, le_refl _, le_refl _⟩⟩
  rw [this]
  unfold InLayer
  constructor
  · rintro (h1 | h1 | h1)
    · exact absurd h1.2 (by simp)
    · obtain ⟨a, ha, hax, he⟩ := h1.2.1
      refine ⟨⟨a, ha, hax⟩, fun b hb hbx => ?_⟩
      have h2 := h1.2.2 ⟨b, hb, hbx, rfl⟩
      have h3 := two_le_interval v hbx
      exact (interval_eq_two_iff v hbx).1 (by omega)
    · exact absurd h1.1 (by simp)
  · rintro ⟨⟨a, ha, hax⟩, hall⟩
    refine Or.inr (Or.inl ⟨by simp, ⟨a, ha, hax, ?_⟩, ?_⟩)
    · rw [(interval_eq_two_iff v hax).2 (hall a ha hax)]; rfl
    · rintro k ⟨b, hb, hbx, rfl⟩
      rw [(interval_eq_two_iff v hbx).2 (hall b hb hbx)]; rfl

theorem layers_minus_one (it : Iter) (v : h.Valid) (l : Finset EId) (hl : IsAntichainSet h.Lt l)
    (x : EId) :
    x ∈ h.layers it l (-1) none ↔ (∃ a ∈ l, h.Lt x a) ∧ ∀ a ∈ l, h.Lt x a → Covers h.Lt x a := by
  rw [C29_layers it v l hl]
  have : (∃ n, InLayer h l x n ∧ -1 ≤ n ∧ n ≤ (none : Option ℤ).getD (-1)) ↔ InLayer h l x (-1) :=
    ⟨fun ⟨n, h1, h2, h3⟩ => by
      have : n = -1 := le_antisymm h3 h2
      exact this ▸ h1, fun h1 => ⟨-1, h1, le_refl _, le_refl _⟩⟩
  rw [this]
  unfold InLayer
  constructor
  · rintro (h1 | h1 | h1)
    · exact absurd h1.2 (by simp)
    · exact absurd h1.1 (by simp)
    · obtain ⟨a, ha, hax, he⟩ := h1.2.1
      refine ⟨⟨a, ha, hax⟩, fun b hb hbx => ?_⟩
      have h2 := h1.2.2 ⟨b, hb, hbx, rfl⟩
      have h3 := two_le_interval v hbx
      exact (interval_eq_two_iff v hbx).1 (by omega)
  · rintro ⟨⟨a, ha, hax⟩, hall⟩
    refine Or.inr (Or.inr ⟨by simp, ⟨a, ha, hax, ?_⟩, ?_⟩)
    · rw [(interval_eq_two_iff v hax).2 (hall a ha hax)]; rfl
    · rintro k ⟨b, hb, hbx, rfl⟩
      rw [(interval_eq_two_iff v hbx).2 (hall b hb hbx)]; rfl

theorem layeredLoop_spec (it : Iter) {lt : ℕ → ℕ → Prop} (o : StrictOrd lt) (s : Finset EId)
    (step : ℤ) (hstep : ∀ k, h.layers it (level lt s k) step none ∩ s = level lt s (k + 1)) :
    ∀ (fuel k : ℕ), (s.filter (fun x => k ≤ ht lt s x)).card ≤ fuel →
      ∃ ls, h.layeredLoop it s step fuel (level lt s k) = .ok ls ∧
        (∀ l ∈ ls, l.Nonempty) ∧ ∀ j, ls.getD j ∅ = level lt s (k + j) := by
  have hemp : ∀ k j, level lt s k = ∅ → level lt s (k + j) = ∅ := by
    intro k j hk
    rw [Finset.eq_empty_iff_forall_notMem] at hk ⊢
    intro x hx
    rw [mem_level] at hx
    obtain ⟨y, hy, -, h2⟩ := ht_reach o hx.1 (k := k) (by omega)
    exact hk y (mem_level.2 ⟨hy, h2⟩)
  intro fuel
  induction fuel with
  | zero =>
    intro k hk
    have h0 : level lt s k = ∅ := by
      rw [Finset.eq_empty_iff_forall_notMem]
      intro x hx
      rw [mem_level] at hx
      have : 0 < (s.filter (fun x => k ≤ ht lt s x)).card :=
        Finset.card_pos.2 ⟨x, Finset.mem_filter.2 ⟨hx.1, hx.2.ge⟩⟩
      omega
    refine ⟨[], by simp [layeredLoop, h0], by simp, fun j => ?_⟩
    rw [hemp k j h0]; simp
  | succ fuel ih =>
    intro k hk
    by_cases h0 : level lt s k = ∅
    · refine ⟨[], by simp [layeredLoop, h0], by simp, fun j => ?_⟩
      rw [hemp k j h0]; simp
    · obtain ⟨y, hy⟩ := Finset.nonempty_iff_ne_empty.2 h0
      have hlt : (s.filter (fun x => k + 1 ≤ ht lt s x)).card < (s.filter (fun x => k ≤ ht lt s x)).card := by
        refine Finset.card_lt_card ⟨fun x hx => ?_, fun hs => ?_⟩
        · rw [Finset.mem_filter] at hx ⊢; exact ⟨hx.1, by omega⟩
        · rw [mem_level] at hy
          have := hs (Finset.mem_filter.2 ⟨hy.1, hy.2.ge⟩)
          rw [Finset.mem_filter] at this
          omega
      obtain ⟨ls, h1, h2, h3⟩ := ih (k + 1) (by omega)
      refine ⟨level lt s k :: ls, ?_, ?_, ?_⟩
      · unfold layeredLoop
        rw [if_neg h0, hstep, h1]
      · intro l hl
        rcases List.mem_cons.1 hl with rfl | hl
        exacts [⟨y, hy⟩, h2 l hl]
      · intro j
        cases j with
        | zero => rfl
        | succ j =>
          rw [List.getD_cons_succ, h3]
          congr 1; omega

/-- what `layered` promises: non-empty antichains; the k-th one holds exactly the events of height k; hence they are pairwise disjoint
and cover `s`. -/
structure LayeredSpec (lt : ℕ → ℕ → Prop) (s : Finset ℕ) (ls : List (Finset ℕ)) : Prop where
  nonempty : ∀ l ∈ ls, l.Nonempty
  antichain : ∀ l ∈ ls, IsAntichainSet lt l
  height : ∀ k x, x ∈ ls.getD k ∅ ↔ x ∈ s ∧ IsHeight lt s x k
  cover : ∀ x, x ∈ s ↔ ∃ l ∈ ls, x ∈ l
  disjoint : ls.Pairwise Disjoint

theorem layeredSpec_of_levels {lt : ℕ → ℕ → Prop} (o : StrictOrd lt) (s : Finset ℕ)
    (ls : List (Finset ℕ)) (h1 : ∀ l ∈ ls, l.Nonempty) (h2 : ∀ j, ls.getD j ∅ = level lt s (0 + j)) :
    LayeredSpec lt s ls := by
  have hget : ∀ j (hj : j < ls.length), ls[j] = level lt s j := fun j hj => by
    have := h2 j
    rwa [List.getD_eq_getElem?_getD, List.getElem?_eq_getElem hj, Option.getD_some, Nat.zero_add] at this
  refine ⟨h1, fun l hl => ?_, fun k x => ?_, fun x => ⟨fun hx => ?_, ?_⟩, ?_⟩
  · obtain ⟨j, hj, rfl⟩ := List.getElem_of_mem hl
    rw [hget]; exact level_antichain o s j
  · rw [h2, Nat.zero_add, mem_level, isHeight_iff, eq_comm]
  · have := h2 (ht lt s x)
    rw [Nat.zero_add] at this
    have hm : x ∈ ls.getD (ht lt s x) ∅ := by rw [this, mem_level]; exact ⟨hx, rfl⟩
    by_cases hj : ht lt s x < ls.length
    · refine ⟨ls[ht lt s x], List.getElem_mem _, ?_⟩
      rw [hget]; exact mem_level.2 ⟨hx, rfl⟩
    · rw [List.getD_eq_getElem?_getD, List.getElem?_eq_none (by omega)] at hm
      simp at hm
  · rintro ⟨l, hl, hx⟩
    obtain ⟨j, hj, rfl⟩ := List.getElem_of_mem hl
    rw [hget, mem_level] at hx
    exact hx.1
  · rw [List.pairwise_iff_getElem]
    intro i j hi hj hij
    rw [hget, hget, Finset.disjoint_left]
    intro x hx hx'
    rw [mem_level] at hx hx'
    omega

/-- **C30.** For an order-convex set of events (in particular for every causet without `eventSet` argument, see `C30_layered`),
`layered` terminates and returns the levels of the set by height; with `reverse` by height measured from above. -/
theorem C30_layered_of (it : Iter) (v : h.Valid) (C s : Finset EId) (hs : OrdConvex h.Lt s) :
    (∃ ls, h.layered it C (some s) false = .ok ls ∧ LayeredSpec h.Lt s ls) ∧
    (∃ ls, h.layered it C (some s) true = .ok ls ∧ LayeredSpec (fun a b => h.Lt b a) s ls) := by
  constructor
  · have o := v.order
    have hstep : ∀ k, h.layers it (level h.Lt s k) 1 none ∩ s = level h.Lt s (k + 1) := fun k => by
      ext x
      rw [Finset.mem_inter, layers_one it v _ (level_antichain o s k), level_succ o hs, and_comm]
    obtain ⟨ls, h1, h2, h3⟩ := layeredLoop_spec it o s 1 hstep s.card 0 (Finset.card_filter_le _ _)
    refine ⟨ls, ?_, layeredSpec_of_levels o s ls h2 h3⟩
    have : h.pastInfOf s = level h.Lt s 0 := by
      ext x; rw [C23_pastInfOf v, level_zero o]
    simp only [layered, Option.getD_some, Bool.false_eq_true, if_false, this]
    exact h1
  · have o : StrictOrd (fun a b => h.Lt b a) :=
      ⟨v.order.irrefl, fun a b c h1 h2 => v.order.trans _ _ _ h2 h1⟩
    have hs' : OrdConvex (fun a b => h.Lt b a) s := fun a ha b hb x h1 h2 => hs b hb a ha x h2 h1
    have hcov : ∀ a b, Covers (fun a b => h.Lt b a) a b ↔ Covers h.Lt b a := fun a b => by
      unfold Covers
      refine and_congr_right fun _ => forall_congr' fun c => ?_
      rw [and_comm]
    have hstep : ∀ k, h.layers it (level (fun a b => h.Lt b a) s k) (-1) none ∩ s =
        level (fun a b => h.Lt b a) s (k + 1) := fun k => by
      ext x
      have ha : IsAntichainSet h.Lt (level (fun a b => h.Lt b a) s k) := fun a ha b hb =>
        level_antichain o s k b hb a ha
      rw [Finset.mem_inter, layers_minus_one it v _ ha, level_succ o hs', and_comm]
      simp only [hcov]
    obtain ⟨ls, h1, h2, h3⟩ := layeredLoop_spec it o s (-1) hstep s.card 0 (Finset.card_filter_le _ _)
    refine ⟨ls, ?_, layeredSpec_of_levels o s ls h2 h3⟩
    have : h.futureInfOf s = level (fun a b => h.Lt b a) s 0 := by
      ext x; rw [C23_futureInfOf v, level_zero o]
    simp only [layered, Option.getD_some, if_true, this]
    exact h1

/-- **C30, whole causet.** A causally closed causet is order-convex. -/
theorem C30_layered (it : Iter) (v : h.Valid) (C : Finset EId) (hC : Closed h.Lt C) :
    (∃ ls, h.layered it C none false = .ok ls ∧ LayeredSpec h.Lt C ls) ∧
    (∃ ls, h.layered it C none true = .ok ls ∧ LayeredSpec (fun a b => h.Lt b a) C ls) :=
  C30_layered_of it v C C fun a ha _ _ x h1 _ => hC a ha x (Or.inl h1)

/-- **C30 fails for sets that are not order-convex.** For the two ends of a 3-chain the upper end is lost. -/
theorem C30_needs_convexity : LinkReachable exChain3 ∧
    ∀ it : Iter, exChain3.layered it ∅ (some {0, 2}) false = .ok [{0}] := by
  refine ⟨exChain3_reach, fun it => ?_⟩
  have v := exChain3_reach.reachable.valid
  have h1 : exChain3.pastInfOf {0, 2} = {0} := by decide
  have h2 : exChain3.layers it {0} 1 none ∩ {0, 2} = ∅ := by
    have : exChain3.layers it {0} 1 none = exChain3.layers Iter.asc {0} 1 none := by
      ext x
      rw [layers_one it v _ (fun a ha b hb => by simp at ha hb; subst ha hb; exact v.irrefl _),
        layers_one Iter.asc v _ (fun a ha b hb => by simp at ha hb; subst ha hb; exact v.irrefl _)]
    rw [this]; decide
  show exChain3.layeredLoop it {0, 2} 1 2 (exChain3.pastInfOf {0, 2}) = _
  rw [h1]
  simp only [layeredLoop, h2, if_true, Finset.singleton_ne_empty, if_false]

example : exDiamond.Valid ∧ Closed exDiamond.Lt {0, 1, 2, 3} ∧
    (exDiamond.layered Iter.asc {0, 1, 2, 3} none false).toOption = some [{0}, {1, 2}, {3}] ∧
    (exDiamond.layered Iter.asc {0, 1, 2, 3} none true).toOption = some [{3}, {1, 2}, {0}] :=
  ⟨exDiamond_valid, exDiamond_closed, by decide, by decide⟩

/-! ## C39 -/

/-- **C39, symmetry.** -/
theorem C39_symmetric (v : h.Valid) (C : Finset EId) (a b : EId) (searching intersecting : Option (Finset EId)) :
    h.smallestIntervalCard C a b searching intersecting =
      h.smallestIntervalCard C b a searching intersecting := by
  have hcomm : ∀ t, h.smallestCommon a b t intersecting = h.smallestCommon b a t intersecting := fun t => by
    unfold smallestCommon
    rw [Finset.inter_comm (h.past a), Finset.inter_comm (h.future a)]
  have hgt : ∀ x y, h.gt x y = true ↔ h.Lt y x := fun x y => by simp [gt, lt_iff]
  unfold smallestIntervalCard
  by_cases h1 : h.Lt a b
  · have g1 : h.gt b a = true := (hgt _ _).2 h1
    have g2 : h.gt a b = false := by
      rw [Bool.eq_false_iff, ne_eq, hgt]; exact v.asymm h1
    simp [g1, g2]
  · by_cases h2 : h.Lt b a
    · have g1 : h.gt a b = true := (hgt _ _).2 h2
      have g2 : h.gt b a = false := by
        rw [Bool.eq_false_iff, ne_eq, hgt]; exact h1
      simp [g1, g2]
    · have g1 : h.gt a b = false := by rw [Bool.eq_false_iff, ne_eq, hgt]; exact h2
      have g2 : h.gt b a = false := by rw [Bool.eq_false_iff, ne_eq, hgt]; exact h1
      by_cases he : a = b
      · subst he; rfl
      · have l1 : h.le a b = false := by
          rw [Bool.eq_false_iff, ne_eq, le_iff]; tauto
        have l2 : h.le b a = false := by
          rw [Bool.eq_false_iff, ne_eq, le_iff]
          rintro (h3 | h3)
          exacts [he h3.symm, h2 h3]
        simp [g1, g2, l1, l2, hcomm]

/-- **C39, related events.** For a ≤ b and the default arguments it is `IntervalCard(a, b)`. -/
theorem C39_related (v : h.Valid) (C : Finset EId) (a b : EId) (hab : h.le a b = true) :
    h.smallestIntervalCard C a b none none = h.intervalCard a b true := by
  have g : h.gt a b = false := by
    rw [Bool.eq_false_iff, ne_eq]
    simp only [gt, decide_eq_true_eq]
    rw [← lt_iff]
    rcases (le_iff h a b).1 hab with rfl | h1
    exacts [v.irrefl _, v.asymm h1]
  simp [smallestIntervalCard, g, hab, intervalCardIn]

theorem minOver_isLeast {α : Type} (s : Finset α) (hs : s.Nonempty) (f : α → ℕ) :
    IsLeast {k | ∃ x ∈ s, k = f x} (minOver s f) := by
  unfold minOver
  rw [dif_pos hs]
  constructor
  · obtain ⟨x, hx, he⟩ := Finset.exists_mem_eq_inf' hs f
    exact ⟨x, hx, he⟩
  · rintro _ ⟨x, hx, rfl⟩
    exact Finset.inf'_le f hx

/-- **C39, spacelike events.** With `p` ranging over the common past and `f` over the common future of a and b in the causet:
the least size of an interval [p, f]; if there is no common past, the least number of events before some f; if there is no
common future, the least number of events after some p; 0 if there is neither. -/
theorem C39_spacelike (v : h.Valid) (C : Finset EId) (a b : EId) (hne : a ≠ b) (h1 : ¬ h.Lt a b)
    (h2 : ¬ h.Lt b a) :
    let P := fun p => p ∈ C ∧ h.Lt p a ∧ h.Lt p b
    let F := fun f => f ∈ C ∧ h.Lt a f ∧ h.Lt b f
    let r := h.smallestIntervalCard C a b none none
    ((∃ p, P p) → (∃ f, F f) → IsLeast {k | ∃ p f, P p ∧ F f ∧ k = (h.interval p f true).card} r) ∧
    ((¬ ∃ p, P p) → (∃ f, F f) → IsLeast {k | ∃ f, F f ∧ k = h.pastCard f} r) ∧
    ((∃ p, P p) → (¬ ∃ f, F f) → IsLeast {k | ∃ p, P p ∧ k = h.futureCard p} r) ∧
    ((¬ ∃ p, P p) → (¬ ∃ f, F f) → r = 0) := by
  intro P F r
  have g1 : h.gt a b = false := by
    rw [Bool.eq_false_iff, ne_eq]; simp only [gt, decide_eq_true_eq]; rwa [← lt_iff]
  have l1 : h.le a b = false := by
    rw [Bool.eq_false_iff, ne_eq, le_iff]; tauto
  have hr : r = h.smallestCommon a b C none := by
    simp [r, smallestIntervalCard, g1, l1]
  have hP : ∀ p, p ∈ h.past a ∩ h.past b ∩ C ↔ P p := fun p => by
    simp only [Finset.mem_inter, past, v.mem_prec, P]; tauto
  have hF : ∀ f, f ∈ h.future a ∩ h.future b ∩ C ↔ F f := fun f => by
    simp only [Finset.mem_inter, future, v.mem_succ, F]; tauto
  rw [hr]
  have eP : h.past a ∩ h.past b ∩ C = ∅ ↔ ¬ ∃ p, P p := by
    rw [Finset.eq_empty_iff_forall_notMem, not_exists]; simp only [hP]
  have eF : h.future a ∩ h.future b ∩ C = ∅ ↔ ¬ ∃ f, F f := by
    rw [Finset.eq_empty_iff_forall_notMem, not_exists]; simp only [hF]
  unfold smallestCommon
  simp only [eP, eF]
  refine ⟨fun p f => ?_, fun p f => ?_, fun p f => ?_, fun p f => ?_⟩
  · rw [if_neg (fun hc => hc.1 p), if_neg (fun hc => hc p), if_neg (fun hc => hc f)]
    obtain ⟨p0, hp0⟩ := p
    obtain ⟨f0, hf0⟩ := f
    convert minOver_isLeast ((h.past a ∩ h.past b ∩ C) ×ˢ (h.future a ∩ h.future b ∩ C))
      ⟨(p0, f0), Finset.mem_product.2 ⟨(hP _).2 hp0, (hF _).2 hf0⟩⟩
      (fun x => h.intervalCardIn x.1 x.2 none) using 1
    ext k
    simp only [Set.mem_setOf_eq, Finset.mem_product, hP, hF, intervalCardIn, C26_intervalCard v, Prod.exists]
    constructor
    · rintro ⟨p, f, h3, h4, h5⟩; exact ⟨p, f, ⟨h3, h4⟩, h5⟩
    · rintro ⟨p, f, ⟨h3, h4⟩, h5⟩; exact ⟨p, f, h3, h4, h5⟩
  · rw [if_neg (fun hc => hc.2 f), if_pos p]
    obtain ⟨f0, hf0⟩ := f
    convert minOver_isLeast (h.future a ∩ h.future b ∩ C) ⟨f0, (hF _).2 hf0⟩
      (fun e => cardIn (h.past e) none) using 1
    ext k
    simp only [Set.mem_setOf_eq, hF, cardIn, pastCard, past]
  · rw [if_neg (fun hc => hc.1 p), if_neg (fun hc => hc p), if_pos f]
    obtain ⟨p0, hp0⟩ := p
    convert minOver_isLeast (h.past a ∩ h.past b ∩ C) ⟨p0, (hP _).2 hp0⟩
      (fun e => cardIn (h.future e) none) using 1
    ext k
    simp only [Set.mem_setOf_eq, hP, cardIn, futureCard, future]
  · rw [if_pos ⟨p, f⟩]

example : exDiamond.Valid ∧ ¬ exDiamond.Lt 1 2 ∧ ¬ exDiamond.Lt 2 1 ∧
    exDiamond.smallestIntervalCard {0, 1, 2, 3} 1 2 none none = 4 ∧ exDiamond.le 0 3 = true :=
  ⟨exDiamond_valid, by decide, by decide, by decide, by decide⟩

/-- **Specification.** the number of events that satisfy `p`, counted in `X` if a set is given -/
def IsCountIn (X : Option (Finset ℕ)) (p : ℕ → Prop) (k : ℕ) : Prop := ∃ s : Finset ℕ, s.card = k ∧ ∀ e, e ∈ s ↔ p e ∧ ∀ x, X = some x → e ∈ x

/-- **Specification.** The least number of events (counted in `X`) between a common past and a common future event in `T` of `a` and `b`; if there is no common past event in `T`, before a common future event; if
there is no common future event in `T`, after a common past event; 0 if there is neither. -/
def IsSmallestCommon (lt : ℕ → ℕ → Prop) (T : Finset ℕ) (X : Option (Finset ℕ)) (a b r : ℕ) : Prop :=
  let P := fun p => p ∈ T ∧ lt p a ∧ lt p b
  let F := fun f => f ∈ T ∧ lt a f ∧ lt b f
  ((∃ p, P p) → (∃ f, F f) → IsLeast {k | ∃ p f, P p ∧ F f ∧ IsCountIn X (fun e => (p = e ∨ lt p e) ∧ (e = f ∨ lt e f)) k} r) ∧
  ((¬ ∃ p, P p) → (∃ f, F f) → IsLeast {k | ∃ f, F f ∧ IsCountIn X (fun e => lt e f) k} r) ∧
  ((∃ p, P p) → (¬ ∃ f, F f) → IsLeast {k | ∃ p, P p ∧ IsCountIn X (fun e => lt p e) k} r) ∧
  ((¬ ∃ p, P p) → (¬ ∃ f, F f) → r = 0)

theorem IsCountIn.iff {X : Option (Finset ℕ)} {p : ℕ → Prop} {k n : ℕ} (h1 : IsCountIn X p k) : IsCountIn X p n ↔ n = k := by
  constructor
  · rintro ⟨s, rfl, hs⟩
    obtain ⟨t, rfl, ht⟩ := h1
    rw [show s = t from Finset.ext fun e => by rw [hs, ht]]
  · rintro rfl; exact h1

theorem cardIn_isCount (X : Option (Finset EId)) (s : Finset EId) (p : EId → Prop) (hp : ∀ e, e ∈ s ↔ p e) : IsCountIn X p (cardIn s X) := by
  cases X with
  | none => exact ⟨s, rfl, fun e => by simp [hp]⟩
  | some x => exact ⟨s ∩ x, rfl, fun e => by simp [hp]⟩

theorem intervalCardIn_isCount (v : h.Valid) (X : Option (Finset EId)) (a b : EId) :
    IsCountIn X (fun e => (a = e ∨ h.Lt a e) ∧ (e = b ∨ h.Lt e b)) (h.intervalCardIn a b X) := by
  have hm : ∀ e, e ∈ h.interval a b true ↔ (a = e ∨ h.Lt a e) ∧ (e = b ∨ h.Lt e b) := fun e => by
    rw [C26_interval v a b e, le_iff, le_iff]
  cases X with
  | none => rw [intervalCardIn, C26_intervalCard v]; exact ⟨_, rfl, fun e => by simp [hm]⟩
  | some x => exact ⟨h.interval a b true ∩ x, rfl, fun e => by simp [hm]⟩

theorem smallestCommon_spec (v : h.Valid) (T : Finset EId) (X : Option (Finset EId)) (a b : EId) : IsSmallestCommon h.Lt T X a b (h.smallestCommon a b T X) := by
  unfold IsSmallestCommon
  intro P F
  have hP : ∀ p, p ∈ h.past a ∩ h.past b ∩ T ↔ P p := fun p => by
    simp only [Finset.mem_inter, past, v.mem_prec, P]; tauto
  have hF : ∀ f, f ∈ h.future a ∩ h.future b ∩ T ↔ F f := fun f => by
    simp only [Finset.mem_inter, future, v.mem_succ, F]; tauto
  have eP : h.past a ∩ h.past b ∩ T = ∅ ↔ ¬ ∃ p, P p := by
    rw [Finset.eq_empty_iff_forall_notMem, not_exists]; simp only [hP]
  have eF : h.future a ∩ h.future b ∩ T = ∅ ↔ ¬ ∃ f, F f := by
    rw [Finset.eq_empty_iff_forall_notMem, not_exists]; simp only [hF]
  unfold smallestCommon
  simp only [eP, eF]
  refine ⟨fun p f => ?_, fun p f => ?_, fun p f => ?_, fun p f => ?_⟩
  · rw [if_neg (fun hc => hc.1 p), if_neg (fun hc => hc p), if_neg (fun hc => hc f)]
    obtain ⟨p0, hp0⟩ := p
    obtain ⟨f0, hf0⟩ := f
    convert minOver_isLeast ((h.past a ∩ h.past b ∩ T) ×ˢ (h.future a ∩ h.future b ∩ T))
      ⟨(p0, f0), Finset.mem_product.2 ⟨(hP _).2 hp0, (hF _).2 hf0⟩⟩
      (fun x => h.intervalCardIn x.1 x.2 X) using 1
    ext k
    simp only [Set.mem_setOf_eq, Finset.mem_product, hP, hF, Prod.exists]
    constructor
    · rintro ⟨p, f, h3, h4, h5⟩
      exact ⟨p, f, ⟨h3, h4⟩, (intervalCardIn_isCount v X p f).iff.1 h5⟩
    · rintro ⟨p, f, ⟨h3, h4⟩, h5⟩
      exact ⟨p, f, h3, h4, (intervalCardIn_isCount v X p f).iff.2 h5⟩
  · rw [if_neg (fun hc => hc.2 f), if_pos p]
    obtain ⟨f0, hf0⟩ := f
    convert minOver_isLeast (h.future a ∩ h.future b ∩ T) ⟨f0, (hF _).2 hf0⟩
      (fun e => cardIn (h.past e) X) using 1
    ext k
    simp only [Set.mem_setOf_eq, hF]
    exact exists_congr fun e => and_congr_right fun _ => (cardIn_isCount X (h.past e) (fun x => h.Lt x e) fun x => by simp only [past, v.mem_prec]).iff
  · rw [if_neg (fun hc => hc.1 p), if_neg (fun hc => hc p), if_pos f]
    obtain ⟨p0, hp0⟩ := p
    convert minOver_isLeast (h.past a ∩ h.past b ∩ T) ⟨p0, (hP _).2 hp0⟩
      (fun e => cardIn (h.future e) X) using 1
    ext k
    simp only [Set.mem_setOf_eq, hP]
    exact exists_congr fun e => and_congr_right fun _ => (cardIn_isCount X (h.future e) (fun x => h.Lt e x) fun x => by simp only [future, v.mem_succ]).iff
  · rw [if_pos ⟨p, f⟩]

/-- **C39, all arguments.** `SmallestIntervalCard(a, b, searching, intersecting)` for all events and all values of the optional arguments (`T` is `searching`, the causet by default; counted is in
`intersecting` = `X` if given): for `a ≤ b` and no set `searching`, or both events in it, the number of events of the closed interval; with only `a` (`b`) in `searching` the number of events after `a` (before `b`);
in all other cases the smallest number over common past and future events. -/
theorem C39_general (v : h.Valid) (C : Finset EId) (a b : EId) (S X : Option (Finset EId)) :
    let r := h.smallestIntervalCard C a b S X
    ((a = b ∨ h.Lt a b) →
      ((∀ t, S = some t → a ∈ t ∧ b ∈ t) → IsCountIn X (fun e => (a = e ∨ h.Lt a e) ∧ (e = b ∨ h.Lt e b)) r) ∧
      (∀ t, S = some t → a ∈ t → b ∉ t → IsCountIn X (fun e => h.Lt a e) r) ∧
      (∀ t, S = some t → a ∉ t → b ∈ t → IsCountIn X (fun e => h.Lt e b) r) ∧
      (∀ t, S = some t → a ∉ t → b ∉ t → IsSmallestCommon h.Lt t X a b r)) ∧
    (a ≠ b → ¬ h.Lt a b → ¬ h.Lt b a → IsSmallestCommon h.Lt (S.getD C) X a b r) := by
  intro r
  have hgt : ∀ x y, h.gt x y = true ↔ h.Lt y x := fun x y => by simp [gt, lt_iff]
  constructor
  · intro hab
    have g : h.gt a b = false := by
      rw [Bool.eq_false_iff, ne_eq, hgt]
      rcases hab with rfl | h1
      exacts [v.irrefl _, v.asymm h1]
    have hle : h.le a b = true := (le_iff h a b).2 hab
    refine ⟨fun hS => ?_, fun t ht ha hb => ?_, fun t ht ha hb => ?_, fun t ht ha hb => ?_⟩
    · have : r = h.intervalCardIn a b X := by
        cases S with
        | none => simp [r, smallestIntervalCard, g, hle]
        | some t => simp [r, smallestIntervalCard, g, hle, hS t rfl]
      rw [this]
      exact intervalCardIn_isCount v X a b
    · have : r = cardIn (h.future a) X := by subst ht; simp [r, smallestIntervalCard, g, hle, ha, hb]
      rw [this]
      exact cardIn_isCount X _ _ fun x => by simp only [future, v.mem_succ]
    · have : r = cardIn (h.past b) X := by subst ht; simp [r, smallestIntervalCard, g, hle, ha, hb]
      rw [this]
      exact cardIn_isCount X _ _ fun x => by simp only [past, v.mem_prec]
    · have : r = h.smallestCommon a b t X := by subst ht; simp [r, smallestIntervalCard, g, hle, ha, hb]
      rw [this]
      exact smallestCommon_spec v t X a b
  · intro hne h1 h2
    have g : h.gt a b = false := by rw [Bool.eq_false_iff, ne_eq, hgt]; exact h2
    have hle : h.le a b = false := by rw [Bool.eq_false_iff, ne_eq, le_iff]; exact fun hh => hh.elim hne h1
    have : r = h.smallestCommon a b (S.getD C) X := by simp [r, smallestIntervalCard, g, hle]
    rw [this]
    exact smallestCommon_spec v _ X a b

example : exDiamond.Valid ∧ exDiamond.smallestIntervalCard {0, 1, 2, 3} 1 3 (some {3}) (some {0, 1}) = 2 ∧ exDiamond.Lt 1 3 ∧
    exDiamond.smallestIntervalCard {0, 1, 2, 3} 1 2 (some {0}) none = 3 :=
  ⟨exDiamond_valid, by decide, by decide, by decide⟩

end Causets
