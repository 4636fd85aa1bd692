import Verif.Props.EmbPermutation
import Verif.Props.EmbInit

/-!
# C100 - `EmbeddedCauset.FromPermutation` for lists that are no permutations

`Causet.FromPermutation` raises ValueError for every list that is not a permutation of 1..n (`C10_not_permutation`).  The embedded version does not check its argument.
-/

namespace Causets

open Heap

/-- **Specification.** Entry number `i` of the list is the last one that is written to row `k` of `n` rows: the entry is `k + 1`, or `k + 1 - n` (numpy counts negative indices from
the end), and all later entries are different from both. -/
def LastFor (P : List ℤ) (k i : ℕ) : Prop :=
  ∃ p, P[i]? = some p ∧ (p = k + 1 ∨ p = k + 1 - P.length) ∧ ∀ j q, i < j → P[j]? = some q → ¬ (q = k + 1 ∨ q = k + 1 - P.length)

/-- **Specification.** The point with the light-cone coordinates `p - 1/2` and `i + 1/2` in units of the cell size `radius / n`. -/
noncomputable def CellPoint (n : ℕ) (radius : ℝ) (p : ℤ) (i : ℕ) : Point := fun a =>
  if a = 0 then ((p : ℝ) + i) * (radius / n) - radius else if a = 1 then ((p : ℝ) - i - 1) * (radius / n) else 0

theorem npIndex_spec (n : ℕ) (j : ℤ) : npIndex n j = if -(n : ℤ) ≤ j ∧ j < n then .ok (if 0 ≤ j then j else n + j).toNat else .error .indexError := by
  unfold npIndex
  by_cases h0 : 0 ≤ j
  · by_cases h1 : j < n
    · rw [if_pos ⟨h0, h1⟩, if_pos ⟨by omega, h1⟩, if_pos h0]
    · rw [if_neg (by omega), if_neg (by omega), if_neg (by omega)]
  · by_cases h1 : -(n : ℤ) ≤ j
    · rw [if_neg (by omega), if_pos (by omega), if_pos (by omega), if_neg h0]
    · rw [if_neg (by omega), if_neg (by omega), if_neg (by omega)]

theorem permCoordsLoop_indexError (s radius : ℝ) (n : ℕ) : ∀ (ps : List ℤ) (i : ℕ) (rows : List Point), rows.length = n →
    (∃ p ∈ ps, p < 1 - n ∨ (n : ℤ) < p) → permCoordsLoop s radius i ps rows = .error .indexError := by
  intro ps
  induction ps with
  | nil => rintro i rows _ ⟨p, hp, -⟩; simp at hp
  | cons p ps ih =>
    intro i rows hl hex
    unfold permCoordsLoop
    dsimp only
    rw [npIndex_spec, hl]
    by_cases hp : p < 1 - n ∨ (n : ℤ) < p
    · rw [if_neg (by omega)]
    · rw [if_pos (by omega)]
      dsimp only
      exact ih _ _ (by simpa using hl) (by
        obtain ⟨q, hq, hq'⟩ := hex
        rcases List.mem_cons.1 hq with rfl | hq
        · exact absurd hq' hp
        · exact ⟨q, hq, hq'⟩)

theorem permCoordsLoop_accepts (s radius : ℝ) (n : ℕ) : ∀ (ps : List ℤ) (i : ℕ) (rows : List Point), rows.length = n →
    (∀ p ∈ ps, 1 - (n : ℤ) ≤ p ∧ p ≤ n) →
    ∃ rows', permCoordsLoop s radius i ps rows = .ok rows' ∧ rows'.length = n ∧ ∀ k : ℕ, k < n →
      (∀ (j : ℕ) (p : ℤ), ps[j]? = some p → (p = k + 1 ∨ p = k + 1 - n) → (∀ (j' : ℕ) (q : ℤ), j < j' → ps[j']? = some q → ¬ (q = k + 1 ∨ q = k + 1 - n)) →
        rows'[k]? = some (point2 (((p : ℝ) - 0.5) * s + (((i + j : ℕ) : ℝ) + 0.5) * s - radius) (((p : ℝ) - 0.5) * s - (((i + j : ℕ) : ℝ) + 0.5) * s))) ∧
      ((∀ p ∈ ps, ¬ (p = k + 1 ∨ p = k + 1 - n)) → rows'[k]? = rows[k]?) := by
  intro ps
  induction ps with
  | nil => intro i rows hl _; exact ⟨rows, rfl, hl, fun k _ => ⟨fun j p hj => by simp at hj, fun _ => rfl⟩⟩
  | cons p ps ih =>
    intro i rows hl hp
    obtain ⟨hp1, hp2⟩ := hp p (by simp)
    have hidx : npIndex rows.length (p - 1) = .ok (if 0 ≤ p - 1 then p - 1 else n + (p - 1)).toNat := by
      rw [npIndex_spec, hl, if_pos (by omega)]
    set pt := point2 (((p : ℝ) - 0.5) * s + ((i : ℝ) + 0.5) * s - radius) (((p : ℝ) - 0.5) * s - ((i : ℝ) + 0.5) * s) with hpt
    set r := (if 0 ≤ p - 1 then p - 1 else (n : ℤ) + (p - 1)).toNat with hr
    have hrn : r < n ∧ ∀ k : ℕ, k < n → (r = k ↔ (p = k + 1 ∨ p = k + 1 - n)) := by
      rw [hr]; split
      · exact ⟨by omega, fun k hk => by omega⟩
      · exact ⟨by omega, fun k hk => by omega⟩
    obtain ⟨rows', e1, e2, e3⟩ := ih (i + 1) (rows.set r pt) (by simpa using hl) (fun q hq => hp q (by simp [hq]))
    refine ⟨rows', by rw [permCoordsLoop]; rw [hidx]; exact e1, e2, fun k hk => ⟨fun j q hj hq hlast => ?_, fun hno => ?_⟩⟩
    · cases j with
      | zero =>
        simp only [List.getElem?_cons_zero, Option.some.injEq] at hj
        subst hj
        have := (e3 k hk).2 fun q hq => by
          obtain ⟨j', hj'⟩ := List.mem_iff_getElem?.1 hq
          exact hlast (j' + 1) q (by omega) (by simpa using hj')
        rw [this, (hrn.2 k hk).2 hq, List.getElem?_set_self (by omega)]
        rfl
      | succ j =>
        simp only [List.getElem?_cons_succ] at hj
        have := (e3 k hk).1 j q hj hq fun j' q' h1 h2 => hlast (j' + 1) q' (by omega) (by simpa using h2)
        rw [this, show i + 1 + j = i + (j + 1) by omega]
    · rw [(e3 k hk).2 fun q hq => hno q (by simp [hq]), List.getElem?_set_ne]
      intro h
      exact hno p (by simp) ((hrn.2 k hk).1 h)

theorem cell_eq (n : ℕ) (radius : ℝ) (p : ℤ) (i : ℕ) :
    point2 (((p : ℝ) - 0.5) * (radius / n) + (((0 + i : ℕ) : ℝ) + 0.5) * (radius / n) - radius) (((p : ℝ) - 0.5) * (radius / n) - (((0 + i : ℕ) : ℝ) + 0.5) * (radius / n)) =
      CellPoint n radius p i := by
  funext a
  unfold point2 CellPoint
  rw [Nat.zero_add]
  split
  · norm_num; ring
  · split
    · norm_num; ring
    · rfl

/-- **C100, exact outcome.** `EmbeddedCauset.FromPermutation(P, labelFormat, radius)` for an arbitrary list of integers: ValueError for a radius that is not positive; otherwise IndexError,
with nothing created, exactly if some entry is above n or below 1 - n; otherwise a causet of n new events labelled 1..n, whatever the list.  The coordinates of event `k` are those
of the last entry `k` or `k - n`, and if there is none they are what the memory of `np.empty` happened to contain. -/
theorem C100_outcome (eps : ℝ) (it : Iter) (junk : ℕ → Point) (P : List ℤ) (fmt : Option (ℕ → String)) (radius : ℝ) (w : World Point) :
    (radius ≤ 0 → embFromPermutation eps it junk P fmt radius w = (.error .valueError, w)) ∧
    (0 < radius → (∃ p ∈ P, p < 1 - (P.length : ℤ) ∨ (P.length : ℤ) < p) → embFromPermutation eps it junk P fmt radius w = (.error .indexError, w)) ∧
    (0 < radius → (∀ p ∈ P, 1 - (P.length : ℤ) ≤ p ∧ p ≤ P.length) →
      ∃ (ids : List EId) (w' : World Point), embFromPermutation eps it junk P fmt radius w = (.ok ids.toFinset, w') ∧ ids.length = P.length ∧ ids.Nodup ∧
        (∀ e ∈ ids, ¬ w.heap.Exists e ∧ w'.heap.Exists e) ∧
        ∀ (k : ℕ) e, ids[k]? = some e → w'.heap.label e = some (mkLabel fmt (k + 1)) ∧
          (∀ i p, LastFor P k i → P[i]? = some p → w'.crd e = some (CellPoint P.length radius p i)) ∧
          ((∀ p ∈ P, p ≠ k + 1 ∧ p ≠ k + 1 - P.length) → w'.crd e = some (junk k))) := by
  refine ⟨fun hr => ?_, fun hr hex => ?_, fun hr hok => ?_⟩
  · unfold embFromPermutation; rw [if_pos (by simpa [test] using hr)]
  · unfold embFromPermutation
    rw [if_neg (by simpa [test] using hr)]
    have h0 : P.length > 0 := by obtain ⟨p, hp, -⟩ := hex; exact List.length_pos_of_mem hp
    unfold permutationCoords
    dsimp only
    rw [if_pos h0, permCoordsLoop_indexError _ _ P.length P 0 _ (by simp) hex]
  · have hco : ∃ rows, permutationCoords junk P radius = .ok rows ∧ rows.length = P.length ∧ ∀ k : ℕ, k < P.length →
        (∀ i p, LastFor P k i → P[i]? = some p → rows[k]? = some (CellPoint P.length radius p i)) ∧
        ((∀ p ∈ P, p ≠ k + 1 ∧ p ≠ k + 1 - P.length) → rows[k]? = some (junk k)) := by
      unfold permutationCoords
      dsimp only
      by_cases h0 : P.length > 0
      · rw [if_pos h0]
        obtain ⟨rows, e1, e2, e3⟩ := permCoordsLoop_accepts (radius / P.length) radius P.length P 0 ((List.range P.length).map junk) (by simp) hok
        refine ⟨rows, e1, e2, fun k hk => ⟨fun i p ⟨q, hq, hk', hl⟩ hp => ?_, fun hno => ?_⟩⟩
        · rw [hp, Option.some.injEq] at hq
          subst hq
          rw [(e3 k hk).1 i p hp hk' hl, cell_eq]
        · rw [(e3 k hk).2 fun p hp => by have := hno p hp; omega]
          simp [hk]
      · rw [if_neg h0]
        exact ⟨_, rfl, by simp, fun k hk => by omega⟩
    obtain ⟨rows, e1, e2, e3⟩ := hco
    obtain ⟨ids, k1, k2, k3, k4, k5, k6, k7⟩ := C46_create (causalityFlat2D eps) it ∅ rows fmt true w (by simp) (by simp)
    have kok := C46_create_ok (causalityFlat2D eps) it ∅ rows fmt true w (by simp) (by simp)
    refine ⟨ids, (create (causalityFlat2D eps) it ∅ rows fmt true w).2.2.2, ?_, by rw [k1, e2], k2, k5, fun k e he => ?_⟩
    · unfold embFromPermutation
      rw [if_neg (by simpa [test] using hr), e1]
      dsimp only
      rw [kok]
      dsimp only
      rw [k4, Finset.empty_union]
    · have hk : k < P.length := by rw [← e2, ← k1]; exact (List.getElem?_eq_some_iff.1 he).1
      obtain ⟨l1, l2⟩ := k6 k e he
      refine ⟨by rw [l1]; simp [Nat.add_comm], fun i p hl hp => by rw [l2]; exact (e3 k hk).1 i p hl hp, fun hno => by rw [l2]; exact (e3 k hk).2 hno⟩

/-- **C100, refuted: rejecting.** For every length n > 1 there are lists that are no permutations, for which `Causet.FromPermutation` raises ValueError, but `EmbeddedCauset.FromPermutation`
returns a causet: with n equal entries 1, all coordinates except those of the first event are uninitialised memory (any values `junk`). -/
theorem C100_reject_refuted (eps : ℝ) (it : Iter) (junk : ℕ → Point) (fmt : Option (ℕ → String)) (lf : LabelFormat) (radius : ℝ) (hr : 0 < radius) (w : World Point) (h : Heap) (n : ℕ) (hn : 1 < n) :
    let P : List ℤ := List.replicate n 1
    (fromPermutation it lf P h).1 = .error .valueError ∧
    ∃ (ids : List EId) (w' : World Point), embFromPermutation eps it junk P fmt radius w = (.ok ids.toFinset, w') ∧ ids.length = n ∧ ids.Nodup ∧
      ∀ (k : ℕ) e, 0 < k → ids[k]? = some e → w'.crd e = some (junk k) := by
  intro P
  have hlen : P.length = n := List.length_replicate
  have hnot : ¬ IsPermutation P := fun hP => by
    have := hP.nodup
    rw [List.nodup_replicate] at this
    omega
  refine ⟨C10_not_permutation it lf P h hnot, ?_⟩
  obtain ⟨ids, w', e1, e2, e3, -, e5⟩ := (C100_outcome eps it junk P fmt radius w).2.2 hr fun p hp => by
    rw [List.eq_of_mem_replicate hp, hlen]; omega
  refine ⟨ids, w', e1, by rw [e2, hlen], e3, fun k e hk he => (e5 k e he).2.2 fun p hp => ?_⟩
  have hkn : k < n := by rw [← hlen, ← e2]; exact (List.getElem?_eq_some_iff.1 he).1
  rw [List.eq_of_mem_replicate hp, hlen]
  omega

/-- **C100, refuted: inside the shape.** An entry that is not positive is accepted as an index from the end, and puts its event outside the diamond that the causet has as its shape: with
entries 0..n-1, event n gets the coordinates of entry 0. -/
theorem C100_inside_refuted (eps : ℝ) (it : Iter) (junk : ℕ → Point) (fmt : Option (ℕ → String)) (radius : ℝ) (hr : 0 < radius) (w : World Point) (n : ℕ) (hn : 0 < n) :
    let P : List ℤ := (List.range n).map (fun i : ℕ => (i : ℤ))
    ∃ (ids : List EId) (w' : World Point), embFromPermutation eps it junk P fmt radius w = (.ok ids.toFinset, w') ∧ ids.length = n ∧
      ∃ e x, ids[n - 1]? = some e ∧ w'.crd e = some x ∧ ¬ InDiamond radius x := by
  intro P
  have hlen : P.length = n := by simp [P]
  obtain ⟨ids, w', e1, e2, e3, -, e5⟩ := (C100_outcome eps it junk P fmt radius w).2.2 hr fun p hp => by
    simp only [P, List.mem_map, List.mem_range] at hp
    obtain ⟨i, hi, rfl⟩ := hp
    rw [hlen]; omega
  have hk : n - 1 < ids.length := by omega
  refine ⟨ids, w', e1, by omega, ids[n - 1], CellPoint P.length radius 0 0, List.getElem?_eq_getElem hk, ?_, ?_⟩
  · refine ((e5 (n - 1) _ (List.getElem?_eq_getElem hk)).2.1 0 0 ⟨0, ?_, Or.inr (by omega), fun j q hj hq => ?_⟩ ?_)
    · simp [P, hn]
    · simp only [P, List.getElem?_map, Option.map_eq_some_iff] at hq
      obtain ⟨i, hi, rfl⟩ := hq
      obtain ⟨hj', hi'⟩ := List.getElem?_eq_some_iff.1 hi
      rw [List.getElem_range] at hi'
      rw [List.length_range] at hj'
      omega
    · simp [P, hn]
  · unfold InDiamond CellPoint
    have hs : 0 < radius / P.length := div_pos hr (by rw [hlen]; exact_mod_cast hn)
    simp only [if_true, one_ne_zero, if_false, Int.cast_zero, Nat.cast_zero]
    norm_num
    rw [abs_of_pos hr, abs_of_pos (by rwa [hlen] at hs ⊢)]
    rw [hlen] at hs ⊢
    linarith

/-- **C100, partial.** Exactly the lists that are no permutation and have an entry outside of 1-n..n are rejected (for a positive radius), with IndexError. -/
theorem C100_reject_partial (eps : ℝ) (it : Iter) (junk : ℕ → Point) (P : List ℤ) (fmt : Option (ℕ → String)) (radius : ℝ) (hr : 0 < radius) (w : World Point) :
    (∃ x, (embFromPermutation eps it junk P fmt radius w).1 = .error x) ↔ ¬ IsPermutation P ∧ ∃ p ∈ P, p < 1 - (P.length : ℤ) ∨ (P.length : ℤ) < p := by
  constructor
  · rintro ⟨x, hx⟩
    have hex : ∃ p ∈ P, p < 1 - (P.length : ℤ) ∨ (P.length : ℤ) < p := by
      by_contra hc
      push Not at hc
      obtain ⟨ids, w', e1, -⟩ := (C100_outcome eps it junk P fmt radius w).2.2 hr hc
      rw [e1] at hx; cases hx
    refine ⟨fun hP => ?_, hex⟩
    obtain ⟨p, hp, hp'⟩ := hex
    have := hP.mem_iff.1 hp
    rw [List.mem_map] at this
    obtain ⟨k, hk, rfl⟩ := this
    rw [List.mem_range] at hk
    omega
  · rintro ⟨-, hex⟩
    exact ⟨_, congrArg Prod.fst ((C100_outcome eps it junk P fmt radius w).2.1 hr hex)⟩

/-- a case for each outcome: `[3, 1]` is rejected, `[0, 1]` and `[1, 1]` are accepted -/
example : (∃ p ∈ ([3, 1] : List ℤ), p < 1 - (([3, 1] : List ℤ).length : ℤ) ∨ (([3, 1] : List ℤ).length : ℤ) < p) ∧
    (∀ p ∈ ([0, 1] : List ℤ), 1 - (([0, 1] : List ℤ).length : ℤ) ≤ p ∧ p ≤ ([0, 1] : List ℤ).length) ∧ ¬ IsPermutation [0, 1] := by
  refine ⟨by decide, by decide, by decide⟩

end Causets
