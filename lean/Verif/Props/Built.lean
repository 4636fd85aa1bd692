import Verif.Props.Cones

/-! # Creating events one after the other: the common part of the constructors -/

namespace Causets

open Heap

/-- Starting from `h0`, events number 0, …, m-1 have been created, ordered by `R` on the numbers. -/
structure Built (h0 : Heap) (R : ℕ → ℕ → Prop) (lab : ℕ → Option Label) (m : ℕ) (h : Heap) :
    Prop where
  valid : h.Valid
  next : h.next = h0.next + m
  lt : ∀ a b, h.Lt a b ↔ h0.Lt a b ∨
    ∃ i j, i < m ∧ j < m ∧ a = h0.next + i ∧ b = h0.next + j ∧ R i j
  old_label : ∀ a, a < h0.next → h.label a = h0.label a
  label : ∀ i, i < m → h.label (h0.next + i) = lab i
  reach : Reachable h0 → Reachable h
  lreach : LinkReachable h0 → LinkReachable h

variable {h0 h : Heap} {R : ℕ → ℕ → Prop} {lab : ℕ → Option Label} {m : ℕ}

theorem Built.zero (v : h0.Valid) : Built h0 R lab 0 h0 where
  valid := v
  next := rfl
  lt a b := by simp
  old_label _ _ := rfl
  label _ hi := absurd hi (Nat.not_lt_zero _)
  reach := id
  lreach := id

theorem Built.lt_iff (v : h0.Valid) (b : Built h0 R lab m h) {i j : ℕ} (hi : i < m) (hj : j < m) :
    h.Lt (h0.next + i) (h0.next + j) ↔ R i j := by
  rw [b.lt]
  constructor
  · rintro (h1 | ⟨i', j', _, _, h3, h4, h5⟩)
    · have : h0.next + i < h0.next := (v.exists_of_lt _ _ h1).1
      omega
    · rwa [Nat.add_left_cancel h3, Nat.add_left_cancel h4]
  · exact fun h1 => Or.inr ⟨i, j, hi, hj, rfl, rfl, h1⟩

theorem Built.step (it : Iter) (v : h0.Valid) (b : Built h0 R lab m h) (P : List ℕ)
    (hP : ∀ p ∈ P, p < m) (hR : ∀ i < m, R i m ↔ ∃ p ∈ P, i = p ∨ R i p)
    (hn : ∀ j ≤ m, ¬ R m j) :
    (h.newEvent it (lab m) (P.map (h0.next + ·)) []).1 = h0.next + m ∧
    Built h0 R lab (m + 1) (h.newEvent it (lab m) (P.map (h0.next + ·)) []).2 := by
  have hPe : ∀ p ∈ P.map (h0.next + ·), h.Exists p := by
    intro p hp
    obtain ⟨q, hq, rfl⟩ := List.mem_map.1 hp
    have := hP q hq
    have h1 := b.next
    show h0.next + q < h.next
    omega
  have hFe : ∀ f ∈ ([] : List EId), h.Exists f := by simp
  have hs : ∀ p ∈ P.map (h0.next + ·), ∀ f ∈ ([] : List EId), h.Lt p f := by simp
  obtain ⟨-, h2, h3, -, -, -, -⟩ := newEvent_fields it h b.valid (lab m) (P.map (h0.next + ·)) [] hPe hFe
  have hlt := newEvent_lt it h b.valid (lab m) (P.map (h0.next + ·)) [] hPe hFe
  refine ⟨b.next, ⟨newEvent_valid it h b.valid _ _ _ hPe hFe hs, ?_, fun x y => ?_, fun a ha => ?_,
    fun i hi => ?_, fun hr => .new _ _ _ _ _ (b.reach hr) hPe hFe hs,
    fun hr => .new _ _ _ _ _ (b.lreach hr) hPe hFe hs⟩⟩
  · rw [h2, b.next]; omega
  · rw [hlt, b.lt]
    simp only [List.mem_map, List.not_mem_nil, false_and, exists_false, and_false, or_false]
    constructor
    · rintro ((h1 | ⟨i, j, hi, hj, h1⟩) | ⟨h1, p, ⟨q, hq, rfl⟩, h5⟩)
      · exact Or.inl h1
      · exact Or.inr ⟨i, j, by omega, by omega, h1⟩
      · refine Or.inr ?_
        rcases h5 with rfl | h5
        · exact ⟨q, m, by have := hP q hq; omega, by omega, rfl, h1.trans b.next,
            (hR q (hP q hq)).2 ⟨q, hq, Or.inl rfl⟩⟩
        · rw [b.lt] at h5
          rcases h5 with h5 | ⟨i, j, hi, hj, h6, h7, h8⟩
          · have : h0.next + q < h0.next := (v.exists_of_lt _ _ h5).2
            omega
          · have hqj : q = j := Nat.add_left_cancel h7
            subst hqj
            exact ⟨i, m, by omega, by omega, h6, h1.trans b.next, (hR i hi).2 ⟨q, hq, Or.inr h8⟩⟩
    · rintro (h1 | ⟨i, j, hi, hj, hxi, h4, h5⟩)
      · exact Or.inl (Or.inl h1)
      · have him : i ≠ m := by rintro rfl; exact hn j (by omega) h5
        by_cases hjm : j = m
        · subst hjm
          obtain ⟨p, hp, h6⟩ := (hR i (by omega)).1 h5
          refine Or.inr ⟨h4.trans b.next.symm, h0.next + p, ⟨p, hp, rfl⟩, ?_⟩
          rcases h6 with rfl | h6
          · exact Or.inl hxi
          · right
            rw [hxi, b.lt_iff v (by omega) (hP p hp)]; exact h6
        · exact Or.inl (Or.inr ⟨i, j, by omega, by omega, hxi, h4, h5⟩)
  · have hne : a ≠ h.next := by
      have := b.next
      intro hc
      have hc' : (a : ℕ) = h.next := hc
      omega
    rw [h3, Function.update_of_ne hne]; exact b.old_label a ha
  · rw [h3]
    by_cases him : i = m
    · subst him; rw [b.next]; exact Function.update_self _ _ _
    · have hne : h0.next + i ≠ h.next := by
        have := b.next
        omega
      rw [Function.update_of_ne hne]; exact b.label i (by omega)

/-- the same with the past given as a list of events -/
theorem Built.step' (it : Iter) (v : h0.Valid) (b : Built h0 R lab m h) (L : List EId)
    (hL : ∀ x ∈ L, ∃ p < m, x = h0.next + p)
    (hR : ∀ i < m, R i m ↔ ∃ p < m, h0.next + p ∈ L ∧ (i = p ∨ R i p)) (hn : ∀ j ≤ m, ¬ R m j) :
    (h.newEvent it (lab m) L []).1 = h0.next + m ∧
    Built h0 R lab (m + 1) (h.newEvent it (lab m) L []).2 := by
  have hmap : (L.map (· - h0.next)).map (h0.next + ·) = L := by
    rw [List.map_map]
    conv_rhs => rw [← List.map_id L]
    refine List.map_congr_left fun x hx => ?_
    obtain ⟨p, _, rfl⟩ := hL x hx
    simp
  have := b.step it v (L.map (· - h0.next))
    (fun p hp => by
      obtain ⟨x, hx, rfl⟩ := List.mem_map.1 hp
      obtain ⟨q, hq, rfl⟩ := hL x hx
      omega)
    (fun i hi => by
      rw [hR i hi]
      constructor
      · rintro ⟨p, _, h1, h2⟩
        exact ⟨p, List.mem_map.2 ⟨_, h1, by omega⟩, h2⟩
      · rintro ⟨p, h1, h2⟩
        obtain ⟨x, hx, rfl⟩ := List.mem_map.1 h1
        obtain ⟨q, hq, rfl⟩ := hL x hx
        have : h0.next + q - h0.next = q := by omega
        rw [this] at h2
        exact ⟨q, hq, hx, h2⟩)
    hn
  rwa [hmap] at this

/-- The finished construction, for indices `ι` numbered by `f`. -/
theorem Built.realises {ι : Type} (v : h0.Valid) (b : Built h0 R lab m h) (f : ι → ℕ)
    (hf : Function.Injective f) (hlt : ∀ i, f i < m) (hsurj : ∀ k < m, ∃ i, f i = k) (S : ι → ι → Prop)
    (hS : ∀ i j, R (f i) (f j) ↔ S i j) : h0.Realises h (fun i => h0.next + f i) S where
  valid := b.valid
  injective i j hij := hf (Nat.add_left_cancel hij)
  fresh i hi := by have : h0.next + f i < h0.next := hi; omega
  alive i := by
    have := hlt i; have h2 := b.next
    show h0.next + f i < h.next
    omega
  rel i j := by rw [b.lt_iff v (hlt i) (hlt j), hS]
  only x y hxy := by
    rw [b.lt] at hxy
    rcases hxy with h1 | ⟨i, j, hi, hj, h1, h2, -⟩
    · exact Or.inl h1
    · obtain ⟨i', rfl⟩ := hsurj i hi
      obtain ⟨j', rfl⟩ := hsurj j hj
      exact Or.inr ⟨i', j', h1, h2⟩
  old x y hx hy := by
    rw [b.lt]
    constructor
    · rintro (h1 | ⟨i, j, hi, hj, h1, h2, -⟩)
      · exact h1
      · have : x < h0.next := hx
        omega
    · exact Or.inl
  old_alive x hx := by
    have h1 : x < h0.next := hx
    have h2 := b.next
    show x < h.next
    omega
  old_label := b.old_label

theorem Heap.Realises.closed {ι : Type} [Fintype ι] {h h' : Heap} {ids : ι → EId} {S : ι → ι → Prop}
    (r : h.Realises h' ids S) (v : h.Valid) : Closed h'.Lt (Finset.univ.image ids) := by
  intro a ha b hab
  obtain ⟨i, -, rfl⟩ := Finset.mem_image.1 ha
  rcases hab with hab | hab
  · rcases r.only _ _ hab with h1 | ⟨_, j, -, rfl⟩
    · exact absurd (v.exists_of_lt _ _ h1).1 (r.fresh i)
    · exact Finset.mem_image_of_mem _ (Finset.mem_univ _)
  · rcases r.only _ _ hab with h1 | ⟨j, _, rfl, -⟩
    · exact absurd (v.exists_of_lt _ _ h1).2 (r.fresh i)
    · exact Finset.mem_image_of_mem _ (Finset.mem_univ _)

/-- `Causet(…)` called with the created events contains exactly these. -/
theorem Heap.Realises.causetInit {ι : Type} [Fintype ι] {h h' : Heap} {ids : ι → EId}
    {S : ι → ι → Prop} (r : h.Realises h' ids S) (v : h.Valid) (it : Iter) :
    h'.causetInit it (Finset.univ.image ids) = .ok (Finset.univ.image ids) := by
  refine C09_causet_of_closed it r.valid _ (fun e he => ?_) (r.closed v)
  obtain ⟨i, -, rfl⟩ := Finset.mem_image.1 he
  exact r.alive i

end Causets
