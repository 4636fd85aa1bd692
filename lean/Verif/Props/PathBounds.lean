import Verif.Props.Paths
import Verif.Props.Path
import Verif.Props.Rank
import Verif.Props.Cones
import Verif.Props.GraphDist

/-! # C132: rank, lengths of paths and the size of the interval bound each other -/

namespace Causets

open Heap

variable {h : Heap}

theorem linkPath_members (v : h.Valid) {a b : EId} {q : List EId} (hq : LinkPath h.Lt a b q) :
    q.Nodup ∧ ∀ x ∈ q, x ∈ h.interval a b true := by
  have hp := LinkPath.pairwise v hq.2.2
  refine ⟨hp.imp fun hab => v.ne hab, fun x hx => ?_⟩
  rw [C26_interval v, le_iff, le_iff]
  obtain ⟨h1, h2, -⟩ := hq
  constructor
  · cases q with
    | nil => simp at hx
    | cons y t =>
      simp only [List.head?_cons, Option.some.injEq] at h1
      subst h1
      rcases List.mem_cons.1 hx with rfl | hx
      · exact Or.inl rfl
      · exact Or.inr ((List.pairwise_cons.1 hp).1 x hx)
  · obtain ⟨ys, rfl⟩ := List.getLast?_eq_some_iff.1 h2
    rcases List.mem_append.1 hx with hx | hx
    · exact Or.inr ((List.pairwise_append.1 hp).2.2 x hx b (by simp))
    · rw [List.mem_singleton] at hx; exact Or.inl hx

/-- a path contains every event between its ends that is related to all its events -/
theorem mem_linkPath (v : h.Valid) : ∀ (q : List EId) (a b x : EId), LinkPath h.Lt a b q → h.le a x = true → h.le x b = true →
    (∀ y ∈ q, x = y ∨ Related h.Lt x y) → x ∈ q
  | [], _, _, _, hq, _, _, _ => by simp [LinkPath] at hq
  | [y], a, b, x, hq, h1, h2, _ => by
    obtain ⟨k1, k2, -⟩ := hq
    simp at k1 k2
    subst k1
    subst k2
    rw [le_iff] at h1 h2
    rcases h1 with rfl | h1
    · simp
    · rcases h2 with rfl | h2
      · simp
      · exact absurd (v.trans h1 h2) (v.order.irrefl _)
  | y :: e :: t, a, b, x, hq, h1, h2, hr => by
    have k1 : y = a := by simpa using hq.1
    subst k1
    obtain ⟨hc, hp⟩ := LinkPath.cons.1 hq
    rcases hr e (by simp) with rfl | hxe | hex
    · simp
    · rw [le_iff] at h1
      rcases h1 with rfl | h1
      · simp
      · exact absurd ⟨h1, hxe⟩ (hc.2 x)
    · exact List.mem_cons_of_mem _ (mem_linkPath v (e :: t) e b x hp (by rw [le_iff]; exact Or.inr hex) h2
        fun z hz => hr z (List.mem_cons_of_mem _ hz))

/-- **C132, bounds.** If `a ≤ b`, then `Rank(a, b)` is a number `n`, the shortest paths have `n + 1` events (and there is one), and every path has
between `n + 1` and `IntervalCard(a, b)` events. -/
theorem C132_bounds (it : Iter) (v : h.Valid) (fuel : ℕ) (hf : h.next ≤ fuel) (hpos : 0 < fuel) (ctx : List ℕ) (a b : EId) (hab : h.le a b = true) :
    h.AnswersWith (rank it fuel ctx a b) (fun r => ∃ n : ℕ, r = .ok (n : ℕ∞) ∧
      h.AnswersWith (paths it a b (.str "min")) (fun r => ∃ ps, r = .ok ps ∧ ps ≠ [] ∧ ∀ q ∈ ps, q.length = n + 1) ∧
      h.AnswersWith (paths it a b (.str "any")) (fun r => ∃ ps, r = .ok ps ∧ ∀ q ∈ ps, n + 1 ≤ q.length ∧ q.length ≤ h.intervalCard a b true)) := by
  refine AnswersWith.mono (C31_rank it v fuel hf hpos ctx a b) ?_
  rintro _ ⟨k, rfl, hk⟩
  rw [le_iff] at hab
  rcases hk with ⟨hn, -⟩ | ⟨-, n, rfl, ⟨p, hp, hl⟩, hleast⟩
  · exact absurd hab hn
  · have hlow : ∀ q, LinkPath h.Lt a b q → n + 1 ≤ q.length := by
      intro q hq
      have hq0 : q.length ≠ 0 := by
        rintro h0
        rw [List.length_eq_zero_iff] at h0
        subst h0
        simp [LinkPath] at hq
      have := hleast ⟨q, hq, (by omega : q.length = (q.length - 1) + 1)⟩
      omega
    refine ⟨n, rfl, AnswersWith.mono (C34_min it v a b) ?_, AnswersWith.mono (C33_all it v a b) ?_⟩
    · rintro _ ⟨ps, rfl, -, hps⟩
      have hpm : p ∈ ps := (hps p).2 ⟨hp, fun q' hq' => by have := hlow q' hq'; omega⟩
      refine ⟨ps, rfl, List.ne_nil_of_mem hpm, fun q hq => ?_⟩
      have h1 := ((hps q).1 hq).2 p hp
      have h2 := hlow q ((hps q).1 hq).1
      omega
    · rintro _ ⟨ps, rfl, -, hps⟩
      refine ⟨ps, rfl, fun q hq => ⟨hlow q ((hps q).1 hq), ?_⟩⟩
      obtain ⟨m1, m2⟩ := linkPath_members v ((hps q).1 hq)
      rw [C26_intervalCard v, ← List.toFinset_card_of_nodup m1]
      exact Finset.card_le_card fun x hx => m2 x (List.mem_toFinset.1 hx)

/-- **C132, unrelated.** If `a ≤ b` is false, `Rank(a, b)` is infinite and there is no path. -/
theorem C132_unrelated (it : Iter) (v : h.Valid) (fuel : ℕ) (hf : h.next ≤ fuel) (hpos : 0 < fuel) (ctx : List ℕ) (a b : EId)
    (hab : ¬ h.le a b = true) :
    h.AnswersWith (rank it fuel ctx a b) (fun r => r = .ok ⊤) ∧
    h.AnswersWith (paths it a b (.str "any")) (fun r => r = .ok []) ∧ h.intervalCard a b true = 0 := by
  have hab' := hab
  rw [le_iff] at hab
  refine ⟨AnswersWith.mono (C31_rank it v fuel hf hpos ctx a b) ?_, AnswersWith.mono (C33_all it v a b) ?_, ?_⟩
  · rintro _ ⟨k, rfl, ⟨-, rfl⟩ | ⟨hn, -⟩⟩
    · rfl
    · exact absurd hn hab
  · rintro _ ⟨ps, rfl, -, hps⟩
    congr 1
    rw [List.eq_nil_iff_forall_not_mem]
    intro q hq
    exact hab (((hps q).1 hq).le v.order)
  · rw [C26_intervalCard v, C26_interval_empty _ _ _ hab', Finset.card_empty]

/-- **C132, chains.** If `a ≤ b`, some path has as many events as the interval exactly if the interval is a chain; then it is the only path. -/
theorem C132_chain (it : Iter) (v : h.Valid) (a b : EId) (hab : h.le a b = true) :
    h.AnswersWith (paths it a b (.str "any")) (fun r => ∃ ps, r = .ok ps ∧
      ((∃ q ∈ ps, q.length = h.intervalCard a b true) ↔ IsChainSet h.Lt (h.interval a b true)) ∧
      (IsChainSet h.Lt (h.interval a b true) → ps.length = 1)) := by
  refine AnswersWith.mono (C33_all it v a b) ?_
  rintro _ ⟨ps, rfl, hnd, hps⟩
  have hall : IsChainSet h.Lt (h.interval a b true) → ∀ q, LinkPath h.Lt a b q → ∀ x, x ∈ q ↔ x ∈ h.interval a b true := by
    intro hch q hq x
    obtain ⟨-, m2⟩ := linkPath_members v hq
    refine ⟨m2 x, fun hx => ?_⟩
    have hx' := (C26_interval v a b x).1 hx
    refine mem_linkPath v q a b x hq hx'.1 hx'.2 fun y hy => ?_
    by_cases hxy : x = y
    · exact Or.inl hxy
    · exact Or.inr (hch x hx y (m2 y hy) hxy)
  rw [le_iff] at hab
  obtain ⟨p, hp⟩ := (C34_nonempty v a b).2 hab
  refine ⟨ps, rfl, ⟨?_, fun hch => ?_⟩, fun hch => ?_⟩
  · rintro ⟨q, hq, hlen⟩
    have hq' := (hps q).1 hq
    obtain ⟨m1, m2⟩ := linkPath_members v hq'
    have hsub : q.toFinset ⊆ h.interval a b true := fun x hx => m2 x (List.mem_toFinset.1 hx)
    have heq : q.toFinset = h.interval a b true := by
      refine Finset.eq_of_subset_of_card_le hsub ?_
      rw [List.toFinset_card_of_nodup m1, hlen, C26_intervalCard v]
    have hpw := LinkPath.pairwise v hq'.2.2
    intro x hx y hy hxy
    rw [← heq, List.mem_toFinset] at hx hy
    have hpw2 : q.Pairwise (Related h.Lt) := hpw.imp fun hh => Or.inl hh
    exact List.Pairwise.forall_of_forall_of_flip (R := fun x y => x ≠ y → Related h.Lt x y) (fun z _ hz => absurd rfl hz)
      (hpw.imp fun hh _ => Or.inl hh) (hpw.imp fun hh _ => Or.inr hh) hx hy hxy
  · refine ⟨p, (hps p).2 hp, ?_⟩
    obtain ⟨m1, -⟩ := linkPath_members v hp
    rw [C26_intervalCard v, ← List.toFinset_card_of_nodup m1]
    congr 1
    ext x
    rw [List.mem_toFinset, hall hch p hp]
  · have huniq : ∀ q ∈ ps, q = p := by
      intro q hq
      have hq' := (hps q).1 hq
      have hperm : q.Perm p := by
        rw [List.perm_ext_iff_of_nodup (linkPath_members v hq').1 (linkPath_members v hp).1]
        intro x
        rw [hall hch q hq', hall hch p hp]
      exact hperm.eq_of_pairwise (fun x y _ _ h1 h2 => absurd (v.trans h1 h2) (v.order.irrefl _))
        (LinkPath.pairwise v hq'.2.2) (LinkPath.pairwise v hp.2.2)
    have : ps = [p] := by
      have hpm := (hps p).2 hp
      match ps, hnd, huniq, hpm with
      | [x], _, hu, _ => rw [hu x (by simp)]
      | x :: y :: t, hnd, hu, _ =>
        have e1 := hu x (by simp)
        have e2 := hu y (by simp)
        rw [e1, e2] at hnd
        simp at hnd
    rw [this]; rfl

/-- The hypotheses are met in the diamond: rank 2, four events in the interval, which is not a chain. -/
example : exDiamond.Valid ∧ exDiamond.le 0 3 = true ∧ exDiamond.intervalCard 0 3 true = 4 ∧ ¬ IsChainSet exDiamond.Lt (exDiamond.interval 0 3 true) := by
  refine ⟨exDiamond_valid, by decide, by decide, ?_⟩
  unfold IsChainSet Related
  decide

end Causets
