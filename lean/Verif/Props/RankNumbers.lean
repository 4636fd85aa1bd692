import Verif.Props.Rank

/-! # C32: `RankNumbers` and `Ranks` -/

namespace Causets

open Heap

variable {h : Heap}

/-- Specification of the rank number of `x` over `s`: 0 if no event of `s` precedes `x`, otherwise the largest rank of `x` over an event of
`s` that precedes it (a rank is the least number of links on a path, see `IsRank`). -/
def IsRankUp (h : Heap) (s : Finset EId) (x : EId) (n : ℤ) : Prop :=
  ((∀ a ∈ s, ¬ h.Lt a x) ∧ n = 0) ∨
  IsGreatest {k : ℤ | ∃ a ∈ s, ∃ m : ℕ, h.Lt a x ∧ IsRank h.Lt a x m ∧ k = m} n

/-- ... and mirrored to the past, with negative numbers. -/
def IsRankDown (h : Heap) (s : Finset EId) (x : EId) (n : ℤ) : Prop :=
  ((∀ b ∈ s, ¬ h.Lt x b) ∧ n = 0) ∨
  IsGreatest {k : ℤ | ∃ b ∈ s, ∃ m : ℕ, h.Lt x b ∧ IsRank h.Lt x b m ∧ k = m} (-n)

theorem IsRank.finite (v : h.Valid) {a b : EId} (hab : h.Lt a b) {r : ℕ∞} (hr : IsRank h.Lt a b r) :
    ∃ n : ℕ, r = n ∧ 1 ≤ n ∧ IsRank h.Lt a b n := by
  rcases id hr with ⟨h1, -⟩ | ⟨_, n, rfl, hn⟩
  · exact absurd (Or.inr hab) h1
  · refine ⟨n, rfl, ?_, hr⟩
    obtain ⟨p, hp⟩ := hn.1
    have := (steps_iff_linkPath n a b).2 ⟨p, hp⟩
    cases n with
    | zero => exact absurd this (v.ne hab)
    | succ n => omega

theorem IsRank.exists (v : h.Valid) (a b : EId) : ∃ r, IsRank h.Lt a b r := by
  have := (rank_spec Iter.asc v ((h.future a ∩ h.past b).card + 1) [] a b (by omega) fun _ => by omega)
  by_cases hab : a = b ∨ h.Lt a b
  · have hex : ∃ m, Steps h.Lt m a b := by
      rcases hab with rfl | hab
      · exact ⟨0, rfl⟩
      · exact exists_steps v _ a b le_rfl hab
    classical
    refine ⟨(Nat.find hex : ℕ), Or.inr ⟨hab, _, rfl, ?_, fun k hk => ?_⟩⟩
    · exact (steps_iff_linkPath _ a b).1 (Nat.find_spec hex)
    · exact Nat.find_min' hex ((steps_iff_linkPath k a b).2 hk)
  · exact ⟨⊤, Or.inl ⟨hab, rfl⟩⟩

theorem intRank_spec (it : Iter) (v : h.Valid) (ctx : List ℕ) (a b : EId) (hab : h.Lt a b) :
    h.AnswersWith (intRank it ctx a b) (fun r => ∃ n : ℕ, r = .ok n ∧ 1 ≤ n ∧ IsRank h.Lt a b n) := by
  unfold intRank
  refine AnswersWith.bind AnswersWith.get fun h1 so => ?_
  refine AnswersWith.bind (C31_rank it v (h1.next + 1) (by rw [so.next]; omega) (by omega) ctx a b) ?_
  rintro _ ⟨k, rfl, hk⟩
  obtain ⟨n, rfl, h2, h3⟩ := hk.finite v hab
  simp only [ENat.coe_ne_top, if_false]
  exact AnswersWith.pure ⟨n, by simp, h2, h3⟩

theorem maxRank_spec (it : Iter) (v : h.Valid) (ctx : List ℕ) : ∀ (L : List (EId × EId)) (m : ℕ),
    (∀ p ∈ L, h.Lt p.1 p.2) →
    h.AnswersWith (maxRank it ctx L m) (fun r => ∃ k : ℕ, r = .ok k ∧ m ≤ k ∧
      (∀ p ∈ L, ∀ n : ℕ, IsRank h.Lt p.1 p.2 n → n ≤ k) ∧
      (k = m ∨ ∃ p ∈ L, IsRank h.Lt p.1 p.2 (k : ℕ))) := by
  intro L
  induction L with
  | nil => intro m _; exact AnswersWith.pure ⟨m, rfl, le_rfl, by simp, Or.inl rfl⟩
  | cons p t ih =>
    obtain ⟨a, b⟩ := p
    intro m hL
    unfold maxRank
    refine AnswersWith.bind (intRank_spec it v _ a b (hL (a, b) (by simp))) ?_
    rintro _ ⟨n, rfl, h1, hn⟩
    refine AnswersWith.mono (ih (max m n) fun p hp => hL p (by simp [hp])) ?_
    rintro _ ⟨k, rfl, h2, h3, h4⟩
    refine ⟨k, rfl, (le_max_left _ _).trans h2, ?_, ?_⟩
    · intro p hp n' hn'
      rcases List.mem_cons.1 hp with rfl | hp
      · have := hn.unique hn'
        have : n = n' := by exact_mod_cast this
        subst this
        exact (le_max_right _ _).trans h2
      · exact h3 p hp n' hn'
    · rcases h4 with rfl | ⟨p, hp, h4⟩
      · rcases max_choice m n with h5 | h5
        · exact Or.inl h5
        · exact Or.inr ⟨(a, b), by simp, by rw [h5]; exact hn⟩
      · exact Or.inr ⟨p, by simp [hp], h4⟩

theorem rankUp_spec (it : Iter) (v : h.Valid) (s : Finset EId) (x : EId) :
    h.AnswersWith (rankUp it s x) (fun r => ∃ n : ℤ, r = .ok n ∧ IsRankUp h s x n) := by
  unfold rankUp
  refine AnswersWith.bind AnswersWith.get fun h1 so => ?_
  have hp : h1.past x = h.past x := by simp only [Heap.past, so.prec]
  rw [hp]
  by_cases hs : h.past x ∩ s = ∅
  · simp only [hs, ne_eq, not_true, if_false]
    refine AnswersWith.pure ⟨0, rfl, Or.inl ⟨fun a ha hax => ?_, rfl⟩⟩
    have : a ∈ h.past x ∩ s := Finset.mem_inter.2 ⟨(v.past_eq a x).2 hax, ha⟩
    rw [hs] at this; simp at this
  · simp only [hs, ne_eq, not_false_eq_true, if_true]
    have hmem : ∀ p ∈ (it.ord [x, 822] (h.past x ∩ s)).map (fun a => (a, x)),
        p.2 = x ∧ p.1 ∈ s ∧ h.Lt p.1 p.2 := by
      rintro _ hp
      obtain ⟨a, ha, rfl⟩ := List.mem_map.1 hp
      rw [it.mem, Finset.mem_inter, v.past_eq] at ha
      exact ⟨rfl, ha.2, ha.1⟩
    refine AnswersWith.bind (maxRank_spec it v [822] _ 0 fun p hp => (hmem p hp).2.2) ?_
    rintro _ ⟨k, rfl, -, h2, h3⟩
    refine AnswersWith.pure ⟨k, rfl, Or.inr ⟨?_, ?_⟩⟩
    · rcases h3 with rfl | ⟨⟨a, b⟩, hp, h3⟩
      · obtain ⟨a, ha⟩ := Finset.nonempty_iff_ne_empty.2 hs
        rw [Finset.mem_inter, v.past_eq] at ha
        obtain ⟨r, hr⟩ := IsRank.exists v a x
        obtain ⟨n, rfl, hn1, hn⟩ := hr.finite v ha.1
        have := h2 (a, x) (by simp only [List.mem_map, it.mem, Finset.mem_inter, v.past_eq]; exact ⟨a, ha, rfl⟩) n hn
        omega
      · obtain ⟨h4, h5, h6⟩ := hmem _ hp
        simp only at h4 h5 h6 h3
        subst h4
        exact ⟨a, h5, k, h6, h3, rfl⟩
    · rintro _ ⟨a, ha, m, hax, hm, rfl⟩
      exact_mod_cast h2 (a, x) (by simp only [List.mem_map, it.mem, Finset.mem_inter, v.past_eq]
                                   exact ⟨a, ⟨hax, ha⟩, rfl⟩) m hm

theorem rankDown_spec (it : Iter) (v : h.Valid) (s : Finset EId) (x : EId) :
    h.AnswersWith (rankDown it s x) (fun r => ∃ n : ℤ, r = .ok n ∧ IsRankDown h s x n) := by
  unfold rankDown
  refine AnswersWith.bind AnswersWith.get fun h1 so => ?_
  have hp : h1.future x = h.future x := by simp only [Heap.future, so.succ]
  rw [hp]
  by_cases hs : h.future x ∩ s = ∅
  · simp only [hs, ne_eq, not_true, if_false]
    refine AnswersWith.pure ⟨0, rfl, Or.inl ⟨fun a ha hax => ?_, rfl⟩⟩
    have : a ∈ h.future x ∩ s := Finset.mem_inter.2 ⟨(v.future_eq x a).2 hax, ha⟩
    rw [hs] at this; simp at this
  · simp only [hs, ne_eq, not_false_eq_true, if_true]
    have hmem : ∀ p ∈ (it.ord [x, 812] (h.future x ∩ s)).map (fun b => (x, b)),
        p.1 = x ∧ p.2 ∈ s ∧ h.Lt p.1 p.2 := by
      rintro _ hp
      obtain ⟨a, ha, rfl⟩ := List.mem_map.1 hp
      rw [it.mem, Finset.mem_inter, v.future_eq] at ha
      exact ⟨rfl, ha.2, ha.1⟩
    refine AnswersWith.bind (maxRank_spec it v [812] _ 0 fun p hp => (hmem p hp).2.2) ?_
    rintro _ ⟨k, rfl, -, h2, h3⟩
    refine AnswersWith.pure ⟨-k, rfl, Or.inr ⟨?_, ?_⟩⟩
    · rw [neg_neg]
      rcases h3 with rfl | ⟨⟨a, b⟩, hp, h3⟩
      · obtain ⟨a, ha⟩ := Finset.nonempty_iff_ne_empty.2 hs
        rw [Finset.mem_inter, v.future_eq] at ha
        obtain ⟨r, hr⟩ := IsRank.exists v x a
        obtain ⟨n, rfl, hn1, hn⟩ := hr.finite v ha.1
        have := h2 (x, a) (by simp only [List.mem_map, it.mem, Finset.mem_inter, v.future_eq]; exact ⟨a, ha, rfl⟩) n hn
        omega
      · obtain ⟨h4, h5, h6⟩ := hmem _ hp
        simp only at h4 h5 h6 h3
        subst h4
        exact ⟨b, h5, k, h6, h3, rfl⟩
    · rintro _ ⟨a, ha, m, hax, hm, rfl⟩
      rw [neg_neg]
      exact_mod_cast h2 (x, a) (by simp only [List.mem_map, it.mem, Finset.mem_inter, v.future_eq]
                                   exact ⟨a, ⟨hax, ha⟩, rfl⟩) m hm

theorem rankNumbersLoop_spec (num : EId → StateM Heap (Except Err ℤ)) (P : EId → ℤ → Prop)
    (hnum : ∀ e, h.AnswersWith (num e) (fun r => ∃ n : ℤ, r = .ok n ∧ P e n)) : ∀ L : List EId,
    h.AnswersWith (rankNumbersLoop num L) (fun r => ∃ ns : List ℤ, r = .ok ns ∧ List.Forall₂ P L ns) := by
  intro L
  induction L with
  | nil => exact AnswersWith.pure ⟨[], rfl, .nil⟩
  | cons e es ih =>
    unfold rankNumbersLoop
    refine AnswersWith.bind (hnum e) ?_
    rintro _ ⟨n, rfl, hn⟩
    refine AnswersWith.bind ih ?_
    rintro _ ⟨ns, rfl, hns⟩
    exact AnswersWith.pure ⟨n :: ns, rfl, .cons hn hns⟩

/-- **C32, rank numbers.** `RankNumbers(L)` (and with `reverse`) never raises, whatever links have been computed so far and whatever order sets are
iterated in; it lists for each event of `L` its rank number relative to the set of events of `L`. -/
theorem C32_rankNumbers (it : Iter) (v : h.Valid) (L : List EId) :
    h.AnswersWith (rankNumbers it L false)
      (fun r => ∃ ns : List ℤ, r = .ok ns ∧ List.Forall₂ (IsRankUp h L.toFinset) L ns) ∧
    h.AnswersWith (rankNumbers it L true)
      (fun r => ∃ ns : List ℤ, r = .ok ns ∧ List.Forall₂ (IsRankDown h L.toFinset) L ns) := by
  unfold rankNumbers
  by_cases h0 : L.toFinset.card = 0
  · obtain rfl : L = [] := by
      rw [Finset.card_eq_zero, List.toFinset_eq_empty_iff] at h0; exact h0
    simp only [List.toFinset_nil, Finset.card_empty, if_true]
    exact ⟨AnswersWith.pure ⟨[], rfl, .nil⟩, AnswersWith.pure ⟨[], rfl, .nil⟩⟩
  · simp only [h0, if_false, Bool.false_eq_true, if_true]
    exact ⟨rankNumbersLoop_spec _ _ (rankUp_spec it v _) L, rankNumbersLoop_spec _ _ (rankDown_spec it v _) L⟩

theorem IsRankUp.unique {s : Finset EId} {x : EId} {m n : ℤ} (h1 : IsRankUp h s x m)
    (h2 : IsRankUp h s x n) : m = n := by
  rcases h1 with ⟨h1, rfl⟩ | h1 <;> rcases h2 with ⟨h2, rfl⟩ | h2
  · rfl
  · obtain ⟨a, ha, _, hax, -⟩ := h2.1; exact absurd hax (h1 a ha)
  · obtain ⟨a, ha, _, hax, -⟩ := h1.1; exact absurd hax (h2 a ha)
  · exact h1.unique h2

theorem IsRankDown.unique {s : Finset EId} {x : EId} {m n : ℤ} (h1 : IsRankDown h s x m)
    (h2 : IsRankDown h s x n) : m = n := by
  rcases h1 with ⟨h1, rfl⟩ | h1 <;> rcases h2 with ⟨h2, rfl⟩ | h2
  · rfl
  · obtain ⟨a, ha, _, hax, -⟩ := h2.1; exact absurd hax (h1 a ha)
  · obtain ⟨a, ha, _, hax, -⟩ := h1.1; exact absurd hax (h2 a ha)
  · have := h1.unique h2; omega

/-- **C32, sign.** The number is 0 exactly for events without past (future) in `s`, otherwise at least 1 (at most -1). -/
theorem C32_sign (v : h.Valid) (s : Finset EId) (x : EId) (n : ℤ) :
    (IsRankUp h s x n → (n = 0 ↔ ∀ a ∈ s, ¬ h.Lt a x) ∧ (n = 0 ∨ 1 ≤ n)) ∧
    (IsRankDown h s x n → (n = 0 ↔ ∀ b ∈ s, ¬ h.Lt x b) ∧ (n = 0 ∨ n ≤ -1)) := by
  constructor
  · rintro (⟨h1, rfl⟩ | h1)
    · simp only [true_iff, true_or, and_true]; exact h1
    · obtain ⟨a, ha, m, hax, hm, hn⟩ := h1.1
      obtain ⟨m', e, hm1, -⟩ := hm.finite v hax
      have : m = m' := by exact_mod_cast e
      refine ⟨⟨fun h0 => by omega, fun h0 => absurd hax (h0 a ha)⟩, Or.inr (by omega)⟩
  · rintro (⟨h1, rfl⟩ | h1)
    · simp only [true_iff, true_or, and_true]; exact h1
    · obtain ⟨a, ha, m, hax, hm, hn⟩ := h1.1
      obtain ⟨m', e, hm1, -⟩ := hm.finite v hax
      have : m = m' := by exact_mod_cast e
      refine ⟨⟨fun h0 => by omega, fun h0 => absurd hax (h0 a ha)⟩, Or.inr (by omega)⟩

theorem Steps.lt_interval (v : h.Valid) (n : ℕ) : ∀ a b : EId, Steps h.Lt n a b → h.Lt a b →
    n + 1 ≤ (h.interval a b true).card := by
  induction n with
  | zero => intro a b hab hlt; exact absurd hab (v.ne hlt)
  | succ n ih =>
    rintro a b ⟨x, hx, hs⟩ hlt
    rcases hs.le v.order n x b with rfl | hxb
    · have h2 := two_le_interval v hlt
      cases n with
      | zero => exact h2
      | succ n =>
        obtain ⟨y, hy, hs⟩ := hs
        rcases hs.le v.order n y x with rfl | h3
        · exact absurd hy.1 (v.irrefl _)
        · exact absurd h3 (v.asymm hy.1)
    · have := ih x b hs hxb
      have h3 := interval_strictMono' v hx.1 hxb
      omega

theorem IsRank.lt_interval (v : h.Valid) {a b : EId} {n : ℕ} (hab : h.Lt a b) (hn : IsRank h.Lt a b n) :
    n + 1 ≤ (h.interval a b true).card := by
  rcases hn with ⟨h1, -⟩ | ⟨_, m, e, hm⟩
  · exact absurd (Or.inr hab) h1
  · obtain rfl : n = m := by exact_mod_cast e
    exact Steps.lt_interval v n a b ((steps_iff_linkPath n a b).2 hm.1) hab

/-- **C32, ranks and layers.** The rank number never exceeds the layer number (in absolute value). -/
theorem C32_le_layer (v : h.Valid) (s : Finset EId) (x : EId) (m n : ℤ) :
    (IsRankUp h s x m → IsLayerUp h s x n → m ≤ n) ∧ (IsRankDown h s x m → IsLayerDown h s x n → n ≤ m) := by
  constructor
  · rintro (⟨h1, rfl⟩ | h1) h2
    · obtain rfl := h2.unique (layerUp_pos_iff v s x)
      rw [layerUp_zero v s x h1]
    · obtain ⟨a, ha, k, hax, hk, rfl⟩ := h1.1
      rcases h2 with ⟨h2, -⟩ | h2
      · exact absurd hax (h2 a ha)
      · have h3 := h2.2 ⟨a, ha, hax, rfl⟩
        have h4 := hk.lt_interval v hax
        omega
  · rintro (⟨h1, rfl⟩ | h1) h2
    · obtain rfl := h2.unique (layerDown_iff v s x)
      rw [layerDown_zero v s x h1]
    · obtain ⟨a, ha, k, hax, hk, hmk⟩ := h1.1
      rcases h2 with ⟨h2, -⟩ | h2
      · exact absurd hax (h2 a ha)
      · have h3 := h2.2 ⟨a, ha, hax, rfl⟩
        have h4 := hk.lt_interval v hax
        omega

/-- Specification of the rank number of an event relative to an antichain `s`: members of `s` have rank 0, events
after `s` a positive, events before `s` a negative rank. -/
def InRank (h : Heap) (s : Finset EId) (x : EId) (n : ℤ) : Prop :=
  (x ∈ s ∧ n = 0) ∨
  (0 < n ∧ IsGreatest {k : ℤ | ∃ a ∈ s, ∃ m : ℕ, h.Lt a x ∧ IsRank h.Lt a x m ∧ k = m} n) ∨
  (n < 0 ∧ IsGreatest {k : ℤ | ∃ b ∈ s, ∃ m : ℕ, h.Lt x b ∧ IsRank h.Lt x b m ∧ k = m} (-n))

theorem inRank_iff (v : h.Valid) (s : Finset EId) (x : EId) (n : ℤ) :
    InRank h s x n ↔ (x ∈ s ∧ n = 0) ∨ ((∃ a ∈ s, h.Lt a x) ∧ IsRankUp h s x n) ∨
      ((∃ b ∈ s, h.Lt x b) ∧ IsRankDown h s x n) := by
  unfold InRank
  refine or_congr Iff.rfl (or_congr ?_ ?_)
  · constructor
    · rintro ⟨h1, h2⟩
      obtain ⟨a, ha, _, hax, -⟩ := id h2.1
      exact ⟨⟨a, ha, hax⟩, Or.inr h2⟩
    · rintro ⟨⟨a, ha, hax⟩, h1⟩
      have := (C32_sign v s x n).1 h1
      rcases h1 with h1 | h1
      · exact absurd hax (h1.1 a ha)
      · refine ⟨?_, h1⟩
        rcases this.2 with h2 | h2
        · exact absurd hax (this.1.1 h2 a ha)
        · omega
  · constructor
    · rintro ⟨h1, h2⟩
      obtain ⟨a, ha, _, hax, -⟩ := id h2.1
      exact ⟨⟨a, ha, hax⟩, Or.inr h2⟩
    · rintro ⟨⟨a, ha, hax⟩, h1⟩
      have := (C32_sign v s x n).2 h1
      rcases h1 with h1 | h1
      · exact absurd hax (h1.1 a ha)
      · refine ⟨?_, h1⟩
        rcases this.2 with h2 | h2
        · exact absurd hax (this.1.1 h2 a ha)
        · omega

theorem ranksFilter_spec (num : EId → StateM Heap (Except Err ℤ)) (P : EId → ℤ → Prop)
    (hnum : ∀ e, h.AnswersWith (num e) (fun r => ∃ n : ℤ, r = .ok n ∧ P e n))
    (hu : ∀ e m n, P e m → P e n → m = n) (lo hi : ℤ) : ∀ (L : List EId) (acc : Finset EId),
    h.AnswersWith (ranksFilter num lo hi L acc) (fun r => ∃ s, r = .ok s ∧
      ∀ x, x ∈ s ↔ x ∈ acc ∨ (x ∈ L ∧ ∃ n, P x n ∧ lo ≤ n ∧ n ≤ hi)) := by
  intro L
  induction L with
  | nil => intro acc; exact AnswersWith.pure ⟨acc, rfl, by simp⟩
  | cons e es ih =>
    intro acc
    unfold ranksFilter
    refine AnswersWith.bind (hnum e) ?_
    rintro _ ⟨n, rfl, hn⟩
    refine AnswersWith.mono (ih _) ?_
    rintro _ ⟨s, rfl, hs⟩
    refine ⟨s, rfl, fun x => ?_⟩
    rw [hs]
    have he : (∃ m, P e m ∧ lo ≤ m ∧ m ≤ hi) ↔ lo ≤ n ∧ n ≤ hi := by
      constructor
      · rintro ⟨m, hm, h1⟩; rw [hu e n m hn hm]; exact h1
      · intro h1; exact ⟨n, hn, h1⟩
    by_cases hr : lo ≤ n ∧ n ≤ hi
    · rw [if_pos hr, Finset.mem_insert, List.mem_cons]
      constructor
      · rintro ((rfl | h1) | h1)
        · exact Or.inr ⟨Or.inl rfl, he.2 hr⟩
        · exact Or.inl h1
        · exact Or.inr ⟨Or.inr h1.1, h1.2⟩
      · rintro (h1 | ⟨rfl | h1, h2⟩)
        · exact Or.inl (Or.inr h1)
        · exact Or.inl (Or.inl rfl)
        · exact Or.inr ⟨h1, h2⟩
    · rw [if_neg hr, List.mem_cons]
      constructor
      · rintro (h1 | h1)
        · exact Or.inl h1
        · exact Or.inr ⟨Or.inr h1.1, h1.2⟩
      · rintro (h1 | ⟨rfl | h1, h2⟩)
        · exact Or.inl h1
        · exact absurd (he.1 h2) hr
        · exact Or.inr ⟨h1, h2⟩

/-- **C32, ranks.** For an antichain `S`, `Ranks(S, first, last)` never raises and holds exactly the events whose rank number relative to
`S` lies in the range (`last` defaults to `first`). -/
theorem C32_ranks (it : Iter) (v : h.Valid) (s : Finset EId) (hs : IsAntichainSet h.Lt s)
    (first : ℤ) (last : Option ℤ) :
    h.AnswersWith (ranks it s first last) (fun r => ∃ t, r = .ok t ∧
      ∀ x, x ∈ t ↔ ∃ n, InRank h s x n ∧ first ≤ n ∧ n ≤ last.getD first) := by
  simp only [inRank_iff v]
  unfold ranks
  generalize last.getD first = L
  simp only
  by_cases hempty : s.card = 0
  · rw [Finset.card_eq_zero] at hempty
    subst hempty
    simp only [Finset.card_empty, true_or, if_true]
    exact AnswersWith.pure ⟨∅, rfl, by simp⟩
  by_cases hfl : first > L
  · rw [if_pos (Or.inr hfl)]
    refine AnswersWith.pure ⟨∅, rfl, fun x => ?_⟩
    simp only [Finset.notMem_empty, false_iff, not_exists, not_and]
    intro n _ h1 h2; omega
  rw [if_neg (by tauto)]
  have up0 : ∀ x ∈ s, ∀ n, IsRankUp h s x n → n = 0 := fun x hx n hn =>
    ((C32_sign v s x n).1 hn).1.2 fun a ha => hs a ha x hx
  have dn0 : ∀ x ∈ s, ∀ n, IsRankDown h s x n → n = 0 := fun x hx n hn =>
    ((C32_sign v s x n).2 hn).1.2 fun a ha => hs x hx a ha
  have down : h.AnswersWith (ranksPast it s first L) (fun r => ∃ t, r = .ok t ∧ ∀ x, x ∈ t ↔
        first ≤ 0 ∧ (x ∈ s ∨ ∃ b ∈ s, h.Lt x b) ∧ ∃ n, IsRankDown h s x n ∧ first ≤ n ∧ n ≤ min 0 L) := by
    unfold ranksPast
    by_cases h0 : first ≤ 0
    · rw [if_pos h0]
      refine AnswersWith.bind AnswersWith.get fun h1 so => ?_
      refine AnswersWith.mono (ranksFilter_spec _ _ (rankDown_spec it v s) (fun e m n => IsRankDown.unique) _ _ _ _) ?_
      rintro _ ⟨t, rfl, ht⟩
      refine ⟨t, rfl, fun x => ?_⟩
      rw [ht, it.mem, C24_pastOf it (so.valid v), so.Lt]
      simp [h0]
    · rw [if_neg h0]
      exact AnswersWith.pure ⟨∅, rfl, by simp [h0]⟩
  refine AnswersWith.bind down ?_
  rintro _ ⟨acc, rfl, hacc⟩
  have up : h.AnswersWith (if L > 0 then do
        let __do_lift ← get
        ranksFilter (rankUp it s) (max first 0) L (it.ord [819] (__do_lift.futureOf it s true false)) acc
      else pure (.ok acc)) (fun r => ∃ t, r = .ok t ∧ ∀ x, x ∈ t ↔ x ∈ acc ∨
        (L > 0 ∧ (x ∈ s ∨ ∃ a ∈ s, h.Lt a x) ∧ ∃ n, IsRankUp h s x n ∧ max first 0 ≤ n ∧ n ≤ L)) := by
    by_cases h0 : L > 0
    · rw [if_pos h0]
      refine AnswersWith.bind AnswersWith.get fun h1 so => ?_
      refine AnswersWith.mono (ranksFilter_spec _ _ (rankUp_spec it v s) (fun e m n => IsRankUp.unique) _ _ _ _) ?_
      rintro _ ⟨t, rfl, ht⟩
      refine ⟨t, rfl, fun x => ?_⟩
      rw [ht, it.mem, C24_futureOf it (so.valid v), so.Lt]
      simp [h0]
    · rw [if_neg h0]
      exact AnswersWith.pure ⟨acc, rfl, by simp [h0]⟩
  refine AnswersWith.mono up ?_
  rintro _ ⟨t, rfl, ht⟩
  refine ⟨t, rfl, fun x => ?_⟩
  rw [ht, hacc]
  constructor
  · rintro (⟨h0, hx, n, hn, h1, h2⟩ | ⟨h0, hx, n, hn, h1, h2⟩)
    · rcases hx with hx | hx
      · have := dn0 x hx n hn
        exact ⟨0, Or.inl ⟨hx, rfl⟩, h0, by omega⟩
      · exact ⟨n, Or.inr (Or.inr ⟨hx, hn⟩), h1, by omega⟩
    · rcases hx with hx | hx
      · have := up0 x hx n hn
        exact ⟨0, Or.inl ⟨hx, rfl⟩, by omega, by omega⟩
      · exact ⟨n, Or.inr (Or.inl ⟨hx, hn⟩), by omega, by omega⟩
  · rintro ⟨n, h1, h2, h3⟩
    rcases h1 with ⟨hx, rfl⟩ | ⟨hx, hn⟩ | ⟨hx, hn⟩
    · exact Or.inl ⟨h2, Or.inl hx, 0, Or.inl ⟨fun b hb => hs x hx b hb, rfl⟩, h2, by omega⟩
    · have h4 := (C32_sign v s x n).1 hn
      have h5 : 1 ≤ n := h4.2.resolve_left fun h6 => by
        obtain ⟨a, ha, hax⟩ := hx
        exact h4.1.1 h6 a ha hax
      exact Or.inr ⟨by omega, Or.inr hx, n, hn, by omega, by omega⟩
    · have h4 := (C32_sign v s x n).2 hn
      have h5 : n ≤ -1 := h4.2.resolve_left fun h6 => by
        obtain ⟨a, ha, hax⟩ := hx
        exact h4.1.1 h6 a ha hax
      exact Or.inl ⟨by omega, Or.inr hx, n, hn, h2, by omega⟩

example : LinkReachable exShort ∧ IsAntichainSet exShort.Lt {0} ∧
    ((rankNumbers Iter.asc [0, 1, 2, 3, 4, 5, 6] false).run exShort).1.toOption = some [0, 1, 2, 3, 4, 1, 4] ∧
    ((rankNumbers Iter.asc [0, 6, 4] true).run exShort).1.toOption = some [-4, 0, -1] ∧
    ((ranks Iter.asc {0} 1 (some 2)).run exShort).1.toOption = some {1, 2, 5, 6} ∧
    exShort.layerNumbers [0, 1, 2, 3, 4, 5, 6] false = [0, 1, 2, 3, 4, 1, 6] := by
  refine ⟨exShort_reach, by unfold IsAntichainSet; decide, ?_, ?_, ?_, ?_⟩ <;> decide

end Causets
