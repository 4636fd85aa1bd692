import Verif.Lemmas.Steps
import Verif.Props.Layers
import Verif.Props.Sorting

/-! # C31: `Rank`; C32: `RankNumbers` and `Ranks` -/

namespace Causets

open Heap

variable {h : Heap}

/-- Specification of the rank of `b` over `a`: infinite unless `a ≤ b`, otherwise the least number of links on a path from `a` to `b`
(a path of `n` links has `n + 1` events). -/
def IsRank (lt : ℕ → ℕ → Prop) (a b : ℕ) (r : ℕ∞) : Prop :=
  (¬ (a = b ∨ lt a b) ∧ r = ⊤) ∨
  ((a = b ∨ lt a b) ∧ ∃ n : ℕ, r = n ∧ IsLeast {m | ∃ p, LinkPath lt a b p ∧ p.length = m + 1} n)

theorem exists_steps (v : h.Valid) : ∀ (n : ℕ) (a b : EId), (h.future a ∩ h.past b).card ≤ n → h.Lt a b →
    ∃ m, Steps h.Lt m a b := by
  have key : ∀ a b : EId, Relation.TransGen (fun x y => x ∈ Finset.range h.next ∧ y ∈ Finset.range h.next ∧
      Covers h.Lt x y) a b → ∃ m, Steps h.Lt m a b := by
    intro a b hab
    induction hab with
    | single hx => exact ⟨1, _, hx.2.2, rfl⟩
    | tail h1 h2 ih =>
      obtain ⟨m, hm⟩ := ih
      exact ⟨m + 1, (Steps.snoc _ _ _).2 ⟨_, hm, h2.2.2⟩⟩
  intro n a b hn hab
  refine key a b (transGen_covers v (Finset.range h.next) ?_ n a b hn ?_ ?_ hab)
  · intro a _ b _ x hax _
    exact Finset.mem_range.2 (v.exists_of_lt _ _ hax).2
  · exact Finset.mem_range.2 (v.exists_of_lt _ _ hab).1
  · exact Finset.mem_range.2 (v.exists_of_lt _ _ hab).2

/-- working form of `IsRank` -/
structure MinSteps (lt : ℕ → ℕ → Prop) (a b : ℕ) (r : ℕ∞) : Prop where
  le : ∀ n : ℕ, Steps lt n a b → r ≤ n
  attained : r = ⊤ ∨ ∃ n : ℕ, r = n ∧ Steps lt n a b

theorem MinSteps.isRank (v : h.Valid) {a b : EId} {r : ℕ∞} (hr : MinSteps h.Lt a b r) : IsRank h.Lt a b r := by
  by_cases hab : a = b ∨ h.Lt a b
  · right
    refine ⟨hab, ?_⟩
    have : ∃ m, Steps h.Lt m a b := by
      rcases hab with rfl | hab
      · exact ⟨0, rfl⟩
      · exact exists_steps v _ a b le_rfl hab
    obtain ⟨m, hm⟩ := this
    rcases hr.attained with h1 | ⟨n, rfl, hn⟩
    · have := hr.le m hm
      rw [h1] at this; simp at this
    · refine ⟨n, rfl, (steps_iff_linkPath n a b).1 hn, fun k hk => ?_⟩
      exact_mod_cast hr.le k ((steps_iff_linkPath k a b).2 hk)
  · left
    refine ⟨hab, ?_⟩
    rcases hr.attained with h1 | ⟨n, rfl, hn⟩
    · exact h1
    · exact absurd (hn.le v.order n a b) hab

theorem rankLoop_spec (v : h.Valid) (rk : EId → EId → StateM Heap (Except Err ℕ∞)) :
    ∀ (L : List (EId × EId)) (r : ℕ∞), 4 ≤ r →
      (∀ p ∈ L, p.1 ≠ p.2 ∧ h.AnswersWith (rk p.1 p.2) (fun x => ∃ k, x = .ok k ∧ MinSteps h.Lt p.1 p.2 k)) →
      h.AnswersWith (rankLoop rk L r) (fun x => ∃ k, x = .ok k ∧ k ≤ r ∧
        (∀ p ∈ L, ∀ n, Steps h.Lt n p.1 p.2 → k ≤ ((n + 2 : ℕ) : ℕ∞)) ∧
        (k = r ∨ ∃ p ∈ L, ∃ n, Steps h.Lt n p.1 p.2 ∧ k = ((n + 2 : ℕ) : ℕ∞))) := by
  intro L
  induction L with
  | nil =>
    intro r _ _
    exact AnswersWith.pure ⟨r, rfl, le_rfl, by simp, Or.inl rfl⟩
  | cons p t ih =>
    obtain ⟨x, y⟩ := p
    intro r hr hL
    have hxy := hL (x, y) (by simp)
    have ht : ∀ p ∈ t, p.1 ≠ p.2 ∧ h.AnswersWith (rk p.1 p.2)
        (fun x => ∃ k, x = .ok k ∧ MinSteps h.Lt p.1 p.2 k) := fun p hp => hL p (by simp [hp])
    unfold rankLoop
    refine AnswersWith.bind hxy.2 ?_
    rintro _ ⟨k, rfl, hk⟩
    -- no path of 0 links
    have hpos : ∀ p ∈ (x, y) :: t, ∀ n, Steps h.Lt n p.1 p.2 → 1 ≤ n := by
      intro p hp n hn
      cases n with
      | zero => exact absurd hn (hL p hp).1
      | succ n => omega
    have hk1 : 1 ≤ k := by
      rcases hk.attained with rfl | ⟨n, rfl, hn⟩
      · exact le_top
      · exact_mod_cast hpos (x, y) (by simp) n hn
    have hk3 : 3 ≤ k + 2 := by
      have := add_le_add_left hk1 2
      simpa [add_comm, show (2 : ℕ∞) + 1 = 3 by norm_num, show (1 : ℕ∞) + 2 = 3 by norm_num] using this
    have hle : ∀ n, Steps h.Lt n x y → min r (k + 2) ≤ ((n + 2 : ℕ) : ℕ∞) := by
      intro n hn
      refine (min_le_right _ _).trans ?_
      push_cast
      exact add_le_add_left (hk.le n hn) 2
    have hatt : min r (k + 2) = r ∨ ∃ n, Steps h.Lt n x y ∧ min r (k + 2) = ((n + 2 : ℕ) : ℕ∞) := by
      rcases min_choice r (k + 2) with h1 | h1
      · exact Or.inl h1
      · rcases hk.attained with rfl | ⟨n, rfl, hn⟩
        · left; simp
        · right; exact ⟨n, hn, by rw [h1]; push_cast; rfl⟩
    have hge3 : 3 ≤ min r (k + 2) := le_min (le_trans (by norm_num) hr) hk3
    dsimp only
    split
    · next h3 =>
      refine AnswersWith.pure ⟨3, rfl, le_trans (by norm_num) hr, ?_, ?_⟩
      · intro p hp n hn
        have := hpos p hp n hn
        exact_mod_cast (by omega : 3 ≤ n + 2)
      · right
        rcases hatt with h1 | ⟨n, hn, h1⟩
        · rw [h3] at h1
          rw [← h1] at hr
          exact absurd hr (by norm_num)
        · exact ⟨(x, y), by simp, n, hn, h3 ▸ h1⟩
    · next h3 =>
      have h4 : 4 ≤ min r (k + 2) := by
        have h5 : (3 : ℕ∞) < min r (k + 2) := lt_of_le_of_ne hge3 (Ne.symm h3)
        have := Order.add_one_le_of_lt h5
        simpa [show (3 : ℕ∞) + 1 = 4 by norm_num] using this
      refine AnswersWith.mono (ih _ h4 ht) ?_
      rintro _ ⟨k', rfl, h1, h2, h5⟩
      refine ⟨k', rfl, h1.trans (min_le_left _ _), ?_, ?_⟩
      · intro p hp n hn
        rcases List.mem_cons.1 hp with rfl | hp
        · exact h1.trans (hle n hn)
        · exact h2 p hp n hn
      · rcases h5 with h5 | ⟨p, hp, n, hn, h5⟩
        · rcases hatt with h6 | ⟨n, hn, h6⟩
          · exact Or.inl (h5.trans h6)
          · exact Or.inr ⟨(x, y), by simp, n, hn, h5.trans h6⟩
        · exact Or.inr ⟨p, by simp [hp], n, hn, h5⟩

theorem rank_spec (it : Iter) (v : h.Valid) : ∀ (fuel : ℕ) (ctx : List ℕ) (a b : EId), 0 < fuel →
    (h.Lt a b → (h.future a ∩ h.past b).card < fuel) →
    h.AnswersWith (rank it fuel ctx a b) (fun r => ∃ k, r = .ok k ∧ MinSteps h.Lt a b k) := by
  intro fuel
  induction fuel with
  | zero => intro _ _ _ h0; omega
  | succ fuel ih =>
    intro ctx a b _ hf
    unfold rank
    refine AnswersWith.bind AnswersWith.get fun h1 so => ?_
    have hle : h1.le a b = true ↔ a = b ∨ h.Lt a b := by rw [le_iff, so.Lt]
    by_cases hab : a = b ∨ h.Lt a b
    swap
    · have : h1.le a b = false := by rw [Bool.eq_false_iff, ne_eq, hle]; exact hab
      simp only [this, Bool.not_false, if_true]
      exact AnswersWith.pure ⟨⊤, rfl, fun n hn => absurd (hn.le v.order n a b) hab, Or.inl rfl⟩
    simp only [hle.2 hab, Bool.not_true, Bool.false_eq_true, if_false]
    split
    · next heq =>
      exact AnswersWith.pure ⟨0, rfl, fun n _ => by simp, Or.inr ⟨0, rfl, heq⟩⟩
    next hne =>
    have hlt : h.Lt a b := hab.resolve_left hne
    have hs0 : ∀ n, Steps h.Lt n a b → 1 ≤ n := by
      intro n hn
      cases n with
      | zero => exact absurd hn hne
      | succ n => omega
    refine Answers.bind (isFutureLink_answers v a b) ?_
    by_cases hlink : Covers h.Lt a b
    · rw [decide_eq_true ((mem_futureLinks v b a).2 hlink), if_pos rfl]
      refine AnswersWith.pure ⟨1, rfl, fun n hn => ?_, Or.inr ⟨1, rfl, b, hlink, rfl⟩⟩
      exact_mod_cast hs0 n hn
    rw [decide_eq_false (fun hc => hlink ((mem_futureLinks v b a).1 hc))]
    simp only [Bool.false_eq_true, if_false]
    have hs1 : ∀ n, Steps h.Lt n a b → 2 ≤ n := by
      intro n hn
      have := hs0 n hn
      rcases Nat.lt_or_ge n 2 with h2 | h2
      · obtain rfl : n = 1 := by omega
        obtain ⟨x, hx, rfl⟩ := hn
        exact absurd hx hlink
      · exact h2
    refine Answers.bind (linkFuture_answers v a) ?_
    refine Answers.bind (linkPast_answers v b) ?_
    have mem2 : ∀ x y, (x ∈ h.futureLinks a ∧ y ∈ h.pastLinks b) ↔ Covers h.Lt a x ∧ Covers h.Lt y b := by
      intro x y; rw [mem_futureLinks v, mem_pastLinks v]
    have hdec : ∀ n, Steps h.Lt (n + 2) a b ↔
        ∃ x y, Covers h.Lt a x ∧ Steps h.Lt n x y ∧ Covers h.Lt y b := by
      intro n
      constructor
      · rintro ⟨x, hx, hs⟩
        obtain ⟨y, hy, hyb⟩ := (Steps.snoc _ _ _).1 hs
        exact ⟨x, y, hx, hy, hyb⟩
      · rintro ⟨x, y, hx, hy, hyb⟩
        exact ⟨x, hx, (Steps.snoc _ _ _).2 ⟨y, hy, hyb⟩⟩
    split
    · next hint =>
      obtain ⟨x, hx⟩ := Finset.nonempty_iff_ne_empty.2 hint
      rw [Finset.mem_inter, mem2] at hx
      refine AnswersWith.pure ⟨2, rfl, fun n hn => ?_, Or.inr ⟨2, rfl, ?_⟩⟩
      · exact_mod_cast hs1 n hn
      · exact (hdec 0).2 ⟨x, x, hx.1, rfl, hx.2⟩
    next hint =>
    rw [not_not] at hint
    have hcard : 0 < (h.future a ∩ h.past b).card := by
      have : ∃ c, h.Lt a c ∧ h.Lt c b := by
        by_contra hc
        push Not at hc
        exact hlink ⟨hlt, fun c hc' => hc c hc'.1 hc'.2⟩
      obtain ⟨c, h1, h2⟩ := this
      exact Finset.card_pos.2 ⟨c, Finset.mem_inter.2 ⟨(v.future_eq _ _).2 h1, (v.past_eq _ _).2 h2⟩⟩
    have hf' := hf hlt
    refine AnswersWith.mono (rankLoop_spec v _ _ ⊤ le_top ?_) ?_
    · rintro ⟨x, y⟩ hxy
      have hxy' : Covers h.Lt a x ∧ Covers h.Lt y b := by
        rw [← mem2]
        have := List.mem_product.1 hxy
        simpa only [it.mem] using this
      refine ⟨?_, ih _ _ _ (by omega) ?_⟩
      · rintro (rfl : x = y)
        have : x ∈ h.futureLinks a ∩ h.pastLinks b := Finset.mem_inter.2 ((mem2 _ _).2 hxy')
        rw [hint] at this; simp at this
      · intro hlt'
        have : (h.future x ∩ h.past y).card < (h.future a ∩ h.past b).card := by
          refine Finset.card_lt_card ⟨fun z hz => ?_, fun hc => ?_⟩
          · rw [Finset.mem_inter, v.future_eq, v.past_eq] at hz ⊢
            exact ⟨v.trans hxy'.1.1 hz.1, v.trans hz.2 hxy'.2.1⟩
          · have hx : x ∈ h.future a ∩ h.past b := by
              rw [Finset.mem_inter, v.future_eq, v.past_eq]
              exact ⟨hxy'.1.1, v.trans hlt' hxy'.2.1⟩
            have := hc hx
            rw [Finset.mem_inter, v.future_eq] at this
            exact v.irrefl _ this.1
        simp only
        omega
    · rintro _ ⟨k, rfl, -, h2, h3⟩
      refine ⟨k, rfl, fun n hn => ?_, ?_⟩
      · have h4 := hs1 n hn
        obtain ⟨m, rfl⟩ := Nat.exists_eq_add_of_le' h4
        obtain ⟨x, y, hx, hs, hy⟩ := (hdec m).1 hn
        refine h2 (x, y) (List.mem_product.2 ?_) m hs
        rw [it.mem, it.mem]
        exact (mem2 x y).2 ⟨hx, hy⟩
      · rcases h3 with h3 | ⟨⟨x, y⟩, hp, n, hn, h3⟩
        · exact Or.inl h3
        · right
          replace hp := List.mem_product.1 hp
          rw [it.mem, it.mem] at hp
          obtain ⟨hx, hy⟩ := (mem2 x y).1 hp
          exact ⟨n + 2, h3, (hdec n).2 ⟨x, y, hx, hn, hy⟩⟩

theorem interval_card_lt_next (v : h.Valid) {a b : EId} (hab : h.Lt a b) : (h.future a ∩ h.past b).card < h.next := by
  have : (h.future a ∩ h.past b) ⊂ Finset.range h.next := by
    refine ⟨fun z hz => ?_, fun hc => ?_⟩
    · rw [Finset.mem_inter, v.future_eq] at hz
      exact Finset.mem_range.2 (v.exists_of_lt _ _ hz.1).2
    · have := hc (Finset.mem_range.2 (v.exists_of_lt _ _ hab).1)
      rw [Finset.mem_inter, v.future_eq] at this
      exact v.irrefl _ this.1
  simpa using Finset.card_lt_card this

/-- **C31.** In every consistent state with exact link memory, whatever links have been computed so far and whatever order the sets are
iterated in: `a.Rank(b)` is infinite unless `a ≤ b`, and otherwise the least number of links on a path from `a` to `b`.  The
recursion ends: a recursion depth of the number of events suffices (and at least one call). -/
theorem C31_rank (it : Iter) (v : h.Valid) (fuel : ℕ) (hf : h.next ≤ fuel) (hpos : 0 < fuel) (ctx : List ℕ) (a b : EId) :
    h.AnswersWith (rank it fuel ctx a b) (fun r => ∃ k, r = .ok k ∧ IsRank h.Lt a b k) :=
  AnswersWith.mono (rank_spec it v fuel ctx a b hpos fun hab => (interval_card_lt_next v hab).trans_le hf)
    (by rintro _ ⟨k, rfl, hk⟩; exact ⟨k, rfl, hk.isRank v⟩)

/-- the depth needed is bounded by the number of events strictly between `a` and `b` -/
theorem C31_depth (it : Iter) (v : h.Valid) (ctx : List ℕ) (a b : EId) :
    h.AnswersWith (rank it ((h.future a ∩ h.past b).card + 1) ctx a b) (fun r => ∃ k, r = .ok k ∧ IsRank h.Lt a b k) :=
  AnswersWith.mono (rank_spec it v _ ctx a b (by omega) fun _ => by omega)
    (by rintro _ ⟨k, rfl, hk⟩; exact ⟨k, rfl, hk.isRank v⟩)

/-- The rank is determined by the order. -/
theorem IsRank.unique {lt : ℕ → ℕ → Prop} {a b : ℕ} {r r' : ℕ∞} (h1 : IsRank lt a b r) (h2 : IsRank lt a b r') : r = r' := by
  rcases h1 with ⟨h1, rfl⟩ | ⟨h1, n, rfl, hn⟩ <;> rcases h2 with ⟨h2, rfl⟩ | ⟨h2, m, rfl, hm⟩
  · rfl
  · exact absurd h2 h1
  · exact absurd h1 h2
  · rw [hn.unique hm]

/-- a chain `0 < 1 < 2 < 3 < 4 < 6` with a shortcut `0 < 5 < 6` -/
def exShort : Heap :=
  let h1 := (Heap.empty.newEvent Iter.asc none [] []).2
  let h2 := (h1.newEvent Iter.asc none [0] []).2
  let h3 := (h2.newEvent Iter.asc none [1] []).2
  let h4 := (h3.newEvent Iter.asc none [2] []).2
  let h5 := (h4.newEvent Iter.asc none [3] []).2
  let h6 := (h5.newEvent Iter.asc none [0] []).2
  (h6.newEvent Iter.asc none [4, 5] []).2

theorem exShort_reach : LinkReachable exShort := by
  refine .new _ _ _ _ _ (.new _ _ _ _ _ (.new _ _ _ _ _ (.new _ _ _ _ _ (.new _ _ _ _ _ (.new _ _ _ _ _
    (.new _ _ _ _ _ .start ?_ ?_ ?_) ?_ ?_ ?_) ?_ ?_ ?_) ?_ ?_ ?_) ?_ ?_ ?_) ?_ ?_ ?_) ?_ ?_ ?_ <;>
    simp [Heap.Exists, Heap.newEvent_fst] <;> decide

example : LinkReachable exShort ∧
    (((rank Iter.asc 8 [] 0 4).run exShort).1).toOption = some 4 ∧
    (((rank Iter.asc 8 [] 0 6).run exShort).1).toOption = some 2 ∧
    (((rank Iter.asc 8 [] 1 6).run exShort).1).toOption = some 4 ∧
    (((rank Iter.asc 8 [] 5 4).run exShort).1).toOption = some ⊤ :=
  ⟨exShort_reach, by decide, by decide, by decide, by decide⟩

end Causets
