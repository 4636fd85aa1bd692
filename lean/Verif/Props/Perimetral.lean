import Verif.Props.MergeLink

/-! # C27: perimetral and internal events; C28: `CentralAntichain` -/

namespace Causets

open Heap

variable {h : Heap}

/-- the links from `a` that are also links to `b` -/
theorem perimetralEvents_answers (v : h.Valid) (a b : EId) :
    h.Answers (perimetralEvents a b)
      (if h.Lt a b then h.futureLinks a ∩ h.pastLinks b else ∅) := by
  unfold perimetralEvents
  refine AnswersWith.bind AnswersWith.get fun g so => ?_
  rw [so.lt]
  by_cases hab : h.Lt a b
  · have : h.lt a b = true := hab
    simp only [this, Bool.not_true, Bool.false_eq_true, if_false, if_pos hab]
    exact Answers.bind (linkFuture_answers v a) (Answers.bind (linkPast_answers v b) Answers.pure)
  · have : h.lt a b = false := by simpa [Heap.Lt] using hab
    simp only [this, Bool.not_false, if_true, if_neg hab]
    exact Answers.pure

/-- **C27, perimetral events.** `PerimetralEvents(a, b)` are the x with links a – x – b. -/
theorem C27_perimetral (v : h.Valid) (a b : EId) :
    h.AnswersWith (perimetralEvents a b) (fun s => ∀ x, x ∈ s ↔ Covers h.Lt a x ∧ Covers h.Lt x b) := by
  refine (perimetralEvents_answers v a b).mono ?_
  rintro _ rfl x
  by_cases hab : h.Lt a b
  · rw [if_pos hab, Finset.mem_inter, mem_futureLinks v, mem_pastLinks v]
  · rw [if_neg hab]
    simp only [Finset.notMem_empty, false_iff, not_and]
    exact fun h1 h2 => hab (v.trans h1.1 h2.1)

/-- **C27, internal events.** `InternalEvents(a, b)` are the events strictly between a and b that are not perimetral. -/
theorem C27_internal (v : h.Valid) (a b : EId) :
    h.AnswersWith (internalEvents a b) (fun s => ∀ x, x ∈ s ↔
      (h.Lt a x ∧ h.Lt x b) ∧ ¬ (Covers h.Lt a x ∧ Covers h.Lt x b)) := by
  unfold internalEvents
  refine AnswersWith.bind AnswersWith.get fun g so => ?_
  rw [so.lt]
  by_cases hab : h.Lt a b
  · have : h.lt a b = true := hab
    simp only [this, Bool.not_true, Bool.false_eq_true, if_false]
    refine AnswersWith.bind AnswersWith.get fun g so => ?_
    refine AnswersWith.bind AnswersWith.get fun g' so' => ?_
    refine AnswersWith.bind (C27_perimetral v a b) fun s hs => AnswersWith.pure fun x => ?_
    rw [Finset.mem_sdiff, hs, Finset.mem_inter]
    simp only [future, past, so.succ, so'.prec, v.mem_succ, v.mem_prec]
  · have : h.lt a b = false := by simpa [Heap.Lt] using hab
    simp only [this, Bool.not_false, if_true]
    refine AnswersWith.pure fun x => ?_
    simp only [Finset.notMem_empty, false_iff, not_and]
    exact fun h1 => absurd (v.trans h1.1 h1.2) hab

open Classical in
/-- **C27, counts.** Both counts are the sizes of the sets, and for a < b they add up to `IntervalCard(a, b) - 2`. -/
theorem C27_counts (v : h.Valid) (a b : EId) :
    ∃ p i : ℕ, h.Answers (perimetralEventCount a b) p ∧ h.Answers (internalEventCount a b) (i : ℤ) ∧
      h.AnswersWith (perimetralEvents a b) (fun s => s.card = p) ∧
      h.AnswersWith (internalEvents a b) (fun s => s.card = i) ∧
      (h.Lt a b → p + i + 2 = h.intervalCard a b true) := by
  by_cases hab : h.Lt a b
  · have ht : h.lt a b = true := hab
    have hpc : h.Answers (perimetralEventCount a b) (h.futureLinks a ∩ h.pastLinks b).card := by
      unfold perimetralEventCount
      refine AnswersWith.bind AnswersWith.get fun g so => ?_
      rw [so.lt]
      simp only [ht, Bool.not_true, Bool.false_eq_true, if_false]
      exact Answers.bind (linkFuture_answers v a) (Answers.bind (linkPast_answers v b) Answers.pure)
    have hsub : h.futureLinks a ∩ h.pastLinks b ⊆ h.future a ∩ h.past b := by
      intro x
      simp only [Finset.mem_inter, mem_futureLinks v, mem_pastLinks v, future, past, v.mem_succ,
        v.mem_prec]
      exact fun hx => ⟨hx.1.1, hx.2.1⟩
    have hcard := Finset.card_sdiff_of_subset hsub
    have hle := Finset.card_le_card hsub
    refine ⟨_, ((h.future a ∩ h.past b) \ (h.futureLinks a ∩ h.pastLinks b)).card, hpc, ?_, ?_, ?_, ?_⟩
    · unfold internalEventCount
      refine AnswersWith.bind AnswersWith.get fun g so => ?_
      rw [so.lt]
      simp only [ht, Bool.not_true, Bool.false_eq_true, if_false]
      refine AnswersWith.bind AnswersWith.get fun g so => ?_
      refine AnswersWith.bind AnswersWith.get fun g' so' => ?_
      refine Answers.bind hpc ?_
      refine AnswersWith.pure ?_
      simp only [future, past, so.succ, so'.prec] at hcard hle ⊢
      omega
    · refine (perimetralEvents_answers v a b).mono ?_
      rintro _ rfl; rw [if_pos hab]
    · refine (C27_internal v a b).mono fun s hs => ?_
      congr 1
      ext x
      rw [hs]
      simp only [Finset.mem_sdiff, Finset.mem_inter, mem_futureLinks v, mem_pastLinks v, future, past,
        v.mem_succ, v.mem_prec]
    · intro _
      have hne := v.ne hab
      have : h.le a b = true := by rw [le_iff]; exact Or.inr hab
      unfold intervalCard
      simp only [this, Bool.not_true, Bool.false_eq_true, if_false, hne, if_true]
      omega
  · have hf : h.lt a b = false := by simpa [Heap.Lt] using hab
    refine ⟨0, 0, ?_, ?_, ?_, ?_, fun h1 => absurd h1 hab⟩
    · unfold perimetralEventCount
      refine AnswersWith.bind AnswersWith.get fun g so => ?_
      rw [so.lt]; simp only [hf, Bool.not_false, if_true]; exact Answers.pure
    · unfold internalEventCount
      refine AnswersWith.bind AnswersWith.get fun g so => ?_
      rw [so.lt]; simp only [hf, Bool.not_false, if_true]; exact Answers.pure
    · unfold perimetralEvents
      refine AnswersWith.bind AnswersWith.get fun g so => ?_
      rw [so.lt]; simp only [hf, Bool.not_false, if_true]; exact AnswersWith.pure rfl
    · unfold internalEvents
      refine AnswersWith.bind AnswersWith.get fun g so => ?_
      rw [so.lt]; simp only [hf, Bool.not_false, if_true]; exact AnswersWith.pure rfl

/-- the diamond 0 < 1, 2 < 3 has two perimetral and no internal events; the chain 0 < 1 < 2 < 3 has no perimetral ones -/
example : exDiamond.Valid ∧ exDiamond.Lt 0 3 ∧ ((perimetralEvents 0 3).run exDiamond).1 = {1, 2} ∧
    ((internalEventCount 0 3).run exDiamond).1 = 0 :=
  ⟨exDiamond_valid, by decide, by decide, by decide⟩

/-! ## C28 -/

theorem centralInner_spec (v : h.Valid) (diff : ℤ) (size : ℕ) (L : List EId) : ∀ s : Finset EId,
    IsAntichainSet h.Lt s →
    s ⊆ h.centralInner diff size L s ∧ IsAntichainSet h.Lt (h.centralInner diff size L s) ∧
    (∀ x ∈ h.centralInner diff size L s, x ∈ s ∨ (x ∈ L ∧ h.imbalance diff x = size)) ∧
    (∀ x ∈ L, h.imbalance diff x = size →
      ∃ y ∈ h.centralInner diff size L s, y = x ∨ Related h.Lt y x) ∧
    (s = ∅ → ∀ x ∈ L, h.imbalance diff x = size →
      ∃ y ∈ h.centralInner diff size L s, h.imbalance diff y = size) := by
  induction L with
  | nil =>
    intro s hs
    exact ⟨subset_rfl, hs, fun x hx => Or.inl hx, fun x hx => by simp at hx, fun _ x hx => by simp at hx⟩
  | cons e es ih =>
    intro s hs
    unfold centralInner
    by_cases hc : h.imbalance diff e = size ∧ h.cone e ∩ s = ∅
    · rw [if_pos hc]
      have hanti : IsAntichainSet h.Lt (insert e s) := by
        have hno : ∀ y ∈ s, ¬ h.Lt e y ∧ ¬ h.Lt y e := fun y hy => by
          have : y ∉ h.cone e := fun hy' => by
            have := Finset.mem_inter.2 ⟨hy', hy⟩
            rw [hc.2] at this
            simp at this
          rw [v.mem_cone] at this
          tauto
        intro a ha b hb
        rcases Finset.mem_insert.1 ha with ha1 | ha1 <;> rcases Finset.mem_insert.1 hb with hb1 | hb1
        · rw [ha1, hb1]; exact v.irrefl _
        · rw [ha1]; exact (hno b hb1).1
        · rw [hb1]; exact (hno a ha1).2
        · exact hs a ha1 b hb1
      obtain ⟨i1, i2, i3, i4, i5⟩ := ih (insert e s) hanti
      have he := i1 (Finset.mem_insert_self e s)
      refine ⟨fun x hx => i1 (Finset.mem_insert_of_mem hx), i2, fun x hx => ?_, fun x hx hsz => ?_,
        fun _ x _ _ => ⟨e, he, hc.1⟩⟩
      · rcases i3 x hx with h1 | h1
        · rcases Finset.mem_insert.1 h1 with rfl | h1
          · exact Or.inr ⟨by simp, hc.1⟩
          · exact Or.inl h1
        · exact Or.inr ⟨List.mem_cons_of_mem _ h1.1, h1.2⟩
      · rcases List.mem_cons.1 hx with rfl | hx
        · exact ⟨x, he, Or.inl rfl⟩
        · exact i4 x hx hsz
    · rw [if_neg hc]
      obtain ⟨i1, i2, i3, i4, i5⟩ := ih s hs
      refine ⟨i1, i2, fun x hx => ?_, fun x hx hsz => ?_, fun h0 x hx hsz => ?_⟩
      · exact (i3 x hx).imp id fun h1 => ⟨List.mem_cons_of_mem _ h1.1, h1.2⟩
      · rcases List.mem_cons.1 hx with rfl | hx
        · have hne : h.cone x ∩ s ≠ ∅ := fun hc' => hc ⟨hsz, hc'⟩
          obtain ⟨y, hy⟩ := Finset.nonempty_iff_ne_empty.2 hne
          rw [Finset.mem_inter, v.mem_cone] at hy
          refine ⟨y, i1 hy.2, ?_⟩
          rcases hy.1 with h1 | h1 | h1
          · exact Or.inr (Or.inl h1)
          · exact Or.inl h1
          · exact Or.inr (Or.inr h1)
        · exact i4 x hx hsz
      · rcases List.mem_cons.1 hx with rfl | hx
        · exact absurd ⟨hsz, by rw [h0]; simp⟩ hc
        · exact i5 h0 x hx hsz

theorem central_foldl (v : h.Valid) (diff : ℤ) (evs : List EId) (sizes : List ℕ) : ∀ s : Finset EId,
    IsAntichainSet h.Lt s → (∀ x ∈ s, x ∈ evs) →
    let r := sizes.foldl (fun s size => h.centralInner diff size evs s) s
    s ⊆ r ∧ IsAntichainSet h.Lt r ∧ (∀ x ∈ r, x ∈ evs) ∧
    ∀ x ∈ evs, h.imbalance diff x ∈ sizes → ∃ y ∈ r, y = x ∨ Related h.Lt y x := by
  induction sizes with
  | nil => intro s hs he; exact ⟨subset_rfl, hs, he, fun x _ hx => by simp at hx⟩
  | cons z zs ih =>
    intro s hs he
    obtain ⟨i1, i2, i3, i4, -⟩ := centralInner_spec v diff z evs s hs
    obtain ⟨j1, j2, j3, j4⟩ := ih _ i2 (fun x hx => (i3 x hx).elim (he x) (fun h1 => h1.1))
    refine ⟨i1.trans j1, j2, j3, fun x hx hz => ?_⟩
    rcases List.mem_cons.1 hz with hz | hz
    · obtain ⟨y, hy, h1⟩ := i4 x hx hz
      exact ⟨y, j1 hy, h1⟩
    · exact j4 x hx hz

/-- **C28.** For every iteration order `CentralAntichain` returns an antichain of the causet that is maximal: every event of
the causet belongs to it or is related to one of its members. -/
theorem C28_centralAntichain (it : Iter) (v : h.Valid) (C : Finset EId) (e : Option EId) :
    h.centralAntichain it C e ⊆ C ∧ IsAntichainSet h.Lt (h.centralAntichain it C e) ∧
    ∀ x ∈ C, ∃ y ∈ h.centralAntichain it C e, y = x ∨ Related h.Lt y x := by
  unfold centralAntichain
  obtain ⟨-, j2, j3, j4⟩ := central_foldl v (h.centralDiff e) (it.ord [715] C)
    ((((it.ord [715] C).map (h.imbalance (h.centralDiff e))).dedup).insertionSort (· ≤ ·)) ∅
    (fun a ha => by simp at ha) (fun a ha => by simp at ha)
  refine ⟨fun x hx => (it.mem _ _ _).1 (j3 x hx), j2, fun x hx => ?_⟩
  refine j4 x ((it.mem _ _ _).2 hx) ?_
  rw [List.mem_insertionSort, List.mem_dedup]
  exact List.mem_map_of_mem ((it.mem _ _ _).2 hx)

/-- The imbalance between past and future of an event, compared to that of the reference event (0 if there is none). -/
def imbalanceTo (h : Heap) (e : Option EId) (x : EId) : ℕ :=
  (((h.past x).card : ℤ) - (h.future x).card - (match e with
    | none => 0
    | some r => ((h.past r).card : ℤ) - (h.future r).card)).natAbs

/-- **C28, centrality.** It contains an event of minimal imbalance |#past - #future - reference|. -/
theorem C28_central (it : Iter) (v : h.Valid) (C : Finset EId) (e : Option EId) (hC : C.Nonempty) :
    ∃ y ∈ h.centralAntichain it C e, ∀ x ∈ C, imbalanceTo h e y ≤ imbalanceTo h e x := by
  obtain ⟨diff, hdiff⟩ : ∃ d : ℤ, d = h.centralDiff e := ⟨_, rfl⟩
  have himb : ∀ x, imbalanceTo h e x = h.imbalance diff x := fun x => by
    unfold imbalanceTo imbalance; rw [hdiff]; cases e <;> rfl
  simp only [himb]
  unfold centralAntichain
  simp only [← hdiff]
  have hmem : ∀ z, z ∈ (((it.ord [715] C).map (h.imbalance diff)).dedup).insertionSort (· ≤ ·) ↔
      ∃ x ∈ C, h.imbalance diff x = z := fun z => by
    rw [List.mem_insertionSort, List.mem_dedup, List.mem_map]; simp [it.mem]
  have hsorted : ((((it.ord [715] C).map (h.imbalance diff)).dedup).insertionSort (· ≤ ·)).Pairwise
      (· ≤ ·) := List.pairwise_insertionSort (· ≤ ·) _
  generalize hz : (((it.ord [715] C).map (h.imbalance diff)).dedup).insertionSort (· ≤ ·) = sizes at *
  cases sizes with
  | nil =>
    obtain ⟨x, hx⟩ := hC
    have := (hmem (h.imbalance diff x)).2 ⟨x, hx, rfl⟩
    simp at this
  | cons z zs =>
    obtain ⟨x0, hx0, hx0z⟩ := (hmem z).1 (by simp)
    obtain ⟨i1, i2, i3, i4, i5⟩ := centralInner_spec v diff z (it.ord [715] C) ∅
      (fun a ha => by simp at ha)
    obtain ⟨y, hy, hyz⟩ := i5 rfl x0 ((it.mem _ _ _).2 hx0) hx0z
    obtain ⟨j1, -, -, -⟩ := central_foldl v diff (it.ord [715] C) zs _ i2
      (fun x hx => (i3 x hx).elim (fun h1 => by simp at h1) (fun h1 => h1.1))
    refine ⟨y, j1 hy, fun x hx => ?_⟩
    rw [hyz]
    rcases List.mem_cons.1 ((hmem _).2 ⟨x, hx, rfl⟩) with h1 | h1
    · omega
    · exact (List.pairwise_cons.1 hsorted).1 _ h1

example : exDiamond.Valid ∧ exDiamond.centralAntichain Iter.asc {0, 1, 2, 3} none = {1, 2} :=
  ⟨exDiamond_valid, by decide⟩

end Causets
