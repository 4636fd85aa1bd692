import Verif.Model.AntichainOld
import Verif.Props.LayeredPerm
import Verif.Props.Sorting

/-! # C108 — what `AntichainPermutations_old` yields (causetpermutations.py:33-134) -/

namespace Causets
open Heap

variable {h : Heap}

namespace OldAntichain

/-! ## Antichains: all distances are `c` -/

/-- all entries off the diagonal are `c` -/
def AllFar (D : DMat) (c : ℕ) : Prop := ∀ i j, i < c → j < c → i ≠ j → D i j = c

theorem far_common (v : h.Valid) (C s : Finset EId) (hs : IsAntichainSet h.Lt s) (a b : EId) (ha : a ∈ s) (hb : b ∈ s) :
    h.smallestIntervalCard C a b (some s) none = 0 ∨ a = b := by
  by_cases hab : a = b
  · exact .inr hab
  left
  have h1 : ¬ h.Lt a b := hs a ha b hb
  have h2 : ¬ h.Lt b a := hs b hb a ha
  have hgt : h.gt a b = false := by
    rw [Bool.eq_false_iff, ne_eq]
    simp only [gt, decide_eq_true_eq]
    rw [← lt_iff]; exact h2
  have hle : h.le a b = false := by
    rw [Bool.eq_false_iff, ne_eq, le_iff]; tauto
  have he : h.smallestIntervalCard C a b (some s) none = h.smallestCommon a b s none := by
    simp [smallestIntervalCard, hgt, hle]
  rw [he]
  unfold smallestCommon
  have mp : h.past a ∩ h.past b ∩ s = ∅ := by
    rw [Finset.eq_empty_iff_forall_notMem]
    intro e he
    simp only [Finset.mem_inter, v.past_eq] at he
    exact hs e he.2 a ha he.1.1
  have mf : h.future a ∩ h.future b ∩ s = ∅ := by
    rw [Finset.eq_empty_iff_forall_notMem]
    intro e he
    simp only [Finset.mem_inter, v.future_eq] at he
    exact hs a ha e he.2 he.1.1
  simp [mp, mf]

theorem card_of_lists {s : Finset EId} {l : List EId} (hl : Lists s l) : l.length = s.card := by
  have : l.toFinset = s := by ext x; simp [hl.2]
  rw [← this, List.toFinset_card_of_nodup hl.1]

theorem allFar_matrix (v : h.Valid) (C s : Finset EId) (hs : IsAntichainSet h.Lt s) (ev : List EId) (hl : Lists s ev) :
    AllFar (h.oldMatrix C s ev s.card) s.card := by
  intro i j hi hj hij
  have hc := card_of_lists hl
  have hm : min i j < ev.length := by omega
  have hM : max i j < ev.length := by omega
  have h1 : ev.getD (min i j) 0 = ev[min i j] := by
    rw [List.getD_eq_getElem?_getD, List.getElem?_eq_getElem hm, Option.getD_some]
  have h2 : ev.getD (max i j) 0 = ev[max i j] := by
    rw [List.getD_eq_getElem?_getD, List.getElem?_eq_getElem hM, Option.getD_some]
  have hne : ev[min i j] ≠ ev[max i j] := by
    intro he
    have := (List.Nodup.getElem_inj_iff hl.1).1 he
    omega
  have hz := (far_common v C s hs _ _ ((hl.2 _).1 (List.getElem_mem hm)) ((hl.2 _).1 (List.getElem_mem hM))).resolve_right hne
  unfold oldMatrix
  rw [if_neg hij, h1, h2, hz]
  simp

/-! ## One round of `__extend` -/

variable {D : DMat} {c : ℕ}

theorem minSel_far (hD : AllFar D c) (i : ℕ) (hi : i < c) : ∀ (subP : List ℕ), subP ≠ [] → (∀ k ∈ subP, k < c ∧ k ≠ i) →
    minSel (fun s => D s i) subP = some (c : ℤ)
  | [], h, _ => absurd rfl h
  | [m], _, h => by
    have := h m (by simp)
    simp [minSel, hD m i this.1 hi this.2]
  | m :: n :: ms, _, h => by
    have h1 := h m (by simp)
    have ih := minSel_far hD i hi (n :: ms) (by simp) (fun k hk => h k (by simp at hk ⊢; tauto))
    unfold minSel
    rw [ih]
    simp [hD m i h1.1 hi h1.2]

theorem pick_far (hD : AllFar D c) (subP : List ℕ) (hne : subP ≠ []) (hlt : ∀ k ∈ subP, k < c) :
    ∀ (is : List ℕ) (p : Option ℕ) (mv : ℤ), (∀ i ∈ is, i < c ∧ i ∉ subP) →
      oldPick D c subP is (p, mv) = .ok (if is = [] then (p, mv) else (is.getLast?, (c : ℤ)))
  | [], p, mv, _ => rfl
  | i :: is, p, mv, hi => by
    have h1 := hi i (by simp)
    have hm := minSel_far hD i h1.1 subP hne (fun k hk => ⟨hlt k hk, fun he => h1.2 (he ▸ hk)⟩)
    unfold oldPick
    simp only [hm, or_true, if_true]
    rw [pick_far hD subP hne hlt is (some i) c (fun j hj => hi j (by simp [hj]))]
    cases is with
    | nil => simp
    | cons a as => simp [List.getLast?_cons]

/-- the round picks the last remaining index -/
theorem pick_ok (hD : AllFar D c) (subP : List ℕ) (hne : subP ≠ []) (hlt : ∀ k ∈ subP, k < c) (hlen : subP.length < c) (prev : Option ℕ) :
    ∃ p, p < c ∧ p ∉ subP ∧ oldPick D c subP ((List.range c).filter (fun i => decide (i ∉ subP))) (prev, (c : ℤ)) = .ok (some p, (c : ℤ)) := by
  set is := (List.range c).filter (fun i => decide (i ∉ subP)) with his
  have hmem : ∀ i ∈ is, i < c ∧ i ∉ subP := fun i hi => by
    rw [his, List.mem_filter] at hi
    simpa using hi
  have hisne : is ≠ [] := by
    intro he
    have hsub : (Finset.range c) ⊆ subP.toFinset := fun x hx => by
      by_contra hc
      have : x ∈ is := by
        rw [his, List.mem_filter]
        simp only [Finset.mem_range] at hx
        simp only [List.mem_toFinset] at hc
        simp [hx, hc]
      rw [he] at this
      simp at this
    have := Finset.card_le_card hsub
    have h2 := List.toFinset_card_le subP
    simp at this
    omega
  obtain ⟨p, hp⟩ : ∃ p, is.getLast? = some p := ⟨is.getLast hisne, List.getLast?_eq_getLast_of_ne_nil hisne⟩
  have hpm := hmem p (List.mem_of_getLast? hp)
  refine ⟨p, hpm.1, hpm.2, ?_⟩
  rw [pick_far hD subP hne hlt is prev c hmem, if_neg hisne, hp]

theorem minIndices_far (hD : AllFar D c) (subP : List ℕ) (hne : subP ≠ []) (hlt : ∀ k ∈ subP, k < c) (p : ℕ) (hp : p < c) (hps : p ∉ subP) :
    oldMinIndices D c subP p c = [subP.length - 1] := by
  cases subP with
  | nil => exact absurd rfl hne
  | cons k ks =>
    have : D k p = c := hD k p (hlt k (by simp)) hp (fun he => hps (by simp [he]))
    simp [oldMinIndices, this]

variable {lt : EId → EId → Bool} {ev : List EId}

theorem indices_one (p k : ℕ) (hD : AllFar D c) (hk : k < c) (hp : p < c) (hpk : p ≠ k) : oldIndices lt ev D c [] p [k] [0] = .ok [1] := by
  have : D k p = c := hD k p hk hp (Ne.symm hpk)
  simp [oldIndices, oldTryAll, oldTry, oldScan, this]

theorem indices_many (subP : List ℕ) (hD : AllFar D c) (hlt : ∀ k ∈ subP, k < c) (p : ℕ) (hp : p < c) (hps : p ∉ subP) (hlen : 2 ≤ subP.length) :
    oldIndices lt ev D c [] p subP [subP.length - 1] = .ok [] := by
  have hd : ∀ i, i < subP.length → D (subP.getD i 0) p = c := fun i hi => by
    have he : subP.getD i 0 = subP[i] := by
      rw [List.getD_eq_getElem?_getD, List.getElem?_eq_getElem hi, Option.getD_some]
    rw [he]
    exact hD _ _ (hlt _ (List.getElem_mem hi)) hp (fun hx => hps (hx ▸ List.getElem_mem hi))
  have h1 := hd (subP.length - 1) (by omega)
  have h2 := hd (subP.length - 1 - 1) (by omega)
  have h3 : subP.length - 1 + 1 - 1 = subP.length - 1 := by omega
  have h4 : ¬ subP.length = 1 := by omega
  have h5 : ¬ subP.length - 1 = 0 := by omega
  have h6 : ¬ subP.length - 1 + 1 = 0 := by omega
  simp only [oldIndices, oldTryAll, oldTry, oldScan, List.not_mem_nil, if_false, if_true, Nat.add_zero, h3, h1, h2, h4, h5, h6, false_and, and_false, false_or, lt_irrefl, List.reverse_nil]
  simp [oldScan]

theorem indices_past (e : EId) (es : List EId) (subP : List ℕ) (hne : subP ≠ []) (p : ℕ) :
    oldIndices lt ev D c (e :: es) p subP [subP.length - 1] = .error .indexError := by
  have hpos : 0 < subP.length := List.length_pos_of_ne_nil hne
  have hscan : ∀ (has : Bool) (l : List EId), ∃ b, oldScan lt ev p (subP.length - 1) subP has l = .ok b := by
    intro has l
    induction l generalizing has with
    | nil => exact ⟨_, rfl⟩
    | cons x xs ih =>
      have : subP[subP.length - 1]? = some (subP[subP.length - 1]'(by omega)) := List.getElem?_eq_getElem _
      unfold oldScan
      simp only [this]
      split
      · exact ⟨_, rfl⟩
      · exact ih _
  have h0 : ∃ q, oldTry lt ev D c (e :: es) p subP 0 (subP.length - 1) [] = .ok q ∧ ∀ x ∈ q, x = subP.length - 1 := by
    unfold oldTry
    rw [if_neg (by simp), if_pos rfl]
    obtain ⟨b, hb⟩ := hscan false (e :: es)
    rw [hb]
    rcases b with _ | b
    · dsimp only
      split
      · exact ⟨_, rfl, by simp⟩
      · split
        · exact ⟨_, rfl, by simp⟩
        · exact ⟨_, rfl, by simp⟩
    · refine ⟨_, rfl, ?_⟩
      intro x hx
      split at hx <;> simpa using hx
  obtain ⟨q, hq, hqm⟩ := h0
  have h1 : oldTry lt ev D c (e :: es) p subP 1 (subP.length - 1 + 1) q = .error .indexError := by
    have h2 : subP.length - 1 + 1 ∉ q := fun hx => by have := hqm _ hx; omega
    have h3 : subP.length - 1 + 1 = subP.length := by omega
    unfold oldTry
    rw [if_neg h2, if_neg (by simp)]
    obtain ⟨y, ys, hy⟩ : ∃ y ys, (e :: es).reverse = y :: ys := by
      cases hr : (e :: es).reverse with
      | nil => simp at hr
      | cons y ys => exact ⟨y, ys, rfl⟩
    rw [hy]
    unfold oldScan
    simp [h3]
  simp [oldIndices, oldTryAll, hq, h1]

/-! ## The generator `__extend` -/

theorem extend_two (hD : AllFar D c) (hc : c = 2) (k : ℕ) (hk : k < c) (fuel : ℕ) (prev : Option ℕ) :
    ∃ p, p < c ∧ p ≠ k ∧ oldExtend lt ev D c [] (fuel + 2) prev [k] = ([[k, p]], .ok ()) := by
  obtain ⟨p, hp, hps, hpick⟩ := pick_ok hD [k] (by simp) (by simpa using hk) (by simp [hc]) prev
  have hpk : p ≠ k := by simpa using hps
  refine ⟨p, hp, hpk, ?_⟩
  have hmi := minIndices_far hD [k] (by simp) (by simpa using hk) p hp hps
  unfold oldExtend
  rw [if_pos (by simp [hc]), hpick]
  dsimp only
  rw [hmi]
  simp only [List.length_singleton, Nat.sub_self, indices_one p k hD hk hp hpk]
  rw [if_neg (by simp)]
  unfold oldExtend
  rw [if_neg (by simp [hc])]
  rfl

theorem extend_stuck (hD : AllFar D c) : ∀ (fuel : ℕ) (subP : List ℕ) (prev : Option ℕ), (∀ k ∈ subP, k < c) → 2 ≤ subP.length → subP.length < c →
    oldExtend lt ev D c [] fuel prev subP = ([], .error .outOfFuel)
  | 0, _, _, _, _, _ => rfl
  | fuel + 1, subP, prev, hlt, hlen, hc => by
    have hne : subP ≠ [] := fun he => by simp [he] at hlen
    obtain ⟨p, hp, hps, hpick⟩ := pick_ok hD subP hne hlt hc prev
    unfold oldExtend
    rw [if_pos hc, hpick]
    dsimp only
    rw [minIndices_far hD subP hne hlt p hp hps]
    simp only [indices_many subP hD hlt p hp hps hlen]
    rw [if_neg (by simp)]
    exact extend_stuck hD fuel subP (some p) hlt hlen hc

theorem extend_many (hD : AllFar D c) (hc : 3 ≤ c) (k : ℕ) (hk : k < c) (fuel : ℕ) (prev : Option ℕ) :
    oldExtend lt ev D c [] fuel prev [k] = ([], .error .outOfFuel) := by
  cases fuel with
  | zero => rfl
  | succ fuel =>
    obtain ⟨p, hp, hps, hpick⟩ := pick_ok hD [k] (by simp) (by simpa using hk) (by simp; omega) prev
    have hpk : p ≠ k := by simpa using hps
    have hmi := minIndices_far hD [k] (by simp) (by simpa using hk) p hp hps
    unfold oldExtend
    rw [if_pos (by simp; omega), hpick]
    dsimp only
    rw [hmi]
    simp only [List.length_singleton, Nat.sub_self, indices_one p k hD hk hp hpk]
    rw [if_neg (by simp)]
    refine extend_stuck hD fuel _ _ ?_ (by simp) (by simp; omega)
    intro x hx
    simp at hx
    rcases hx with rfl | rfl <;> assumption

theorem extend_past (hD : AllFar D c) (hc : 2 ≤ c) (k : ℕ) (hk : k < c) (fuel : ℕ) (prev : Option ℕ) (e : EId) (es : List EId) :
    oldExtend lt ev D c (e :: es) (fuel + 1) prev [k] = ([], .error .indexError) := by
  obtain ⟨p, hp, hps, hpick⟩ := pick_ok hD [k] (by simp) (by simpa using hk) (by simp; omega) prev
  unfold oldExtend
  rw [if_pos (by simp; omega), hpick]
  dsimp only
  rw [minIndices_far hD [k] (by simp) (by simpa using hk) p hp hps, indices_past e es [k] (by simp) p]

theorem extend_zero (k : ℕ) (pl : List EId) (prev : Option ℕ) : oldExtend lt ev D c pl 0 prev [k] = ([], .error .outOfFuel) := rfl

theorem extend_two_one (hD : AllFar D c) (hc : c = 2) (k : ℕ) (hk : k < c) (prev : Option ℕ) :
    oldExtend lt ev D c [] 1 prev [k] = ([], .error .outOfFuel) := by
  obtain ⟨p, hp, hps, hpick⟩ := pick_ok hD [k] (by simp) (by simpa using hk) (by simp [hc]) prev
  have hpk : p ≠ k := by simpa using hps
  have hmi := minIndices_far hD [k] (by simp) (by simpa using hk) p hp hps
  unfold oldExtend
  rw [if_pos (by simp [hc]), hpick]
  dsimp only
  rw [hmi]
  simp only [List.length_singleton, Nat.sub_self, indices_one p k hD hk hp hpk]
  rw [if_neg (by simp)]
  rfl

/-! ## The start -/

theorem start_mem : ∀ (l : List EId) (i : ℕ) (P : List ℕ) (cc : ℤ), (∃ k, P = [k] ∧ k < i) →
    ∃ k, oldStart h i l (P, cc) = [k] ∧ k < i + l.length
  | [], i, P, cc, ⟨k, hP, hk⟩ => ⟨k, by simp [oldStart, hP], by simpa using hk⟩
  | e :: es, i, P, cc, ⟨k, hP, hk⟩ => by
    unfold oldStart
    split
    · obtain ⟨k', h1, h2⟩ := start_mem es (i + 1) [i] (h.coneCard e : ℤ) ⟨i, rfl, by omega⟩
      exact ⟨k', h1, by simp; omega⟩
    · obtain ⟨k', h1, h2⟩ := start_mem es (i + 1) P cc ⟨k, hP, by omega⟩
      exact ⟨k', h1, by simp; omega⟩

theorem start_ok (l : List EId) (hl : l ≠ []) : ∃ k, oldStart h 0 l ([], -1) = [k] ∧ k < l.length := by
  cases l with
  | nil => exact absurd rfl hl
  | cons e es =>
    unfold oldStart
    rw [if_pos (by have : (0 : ℤ) ≤ (h.coneCard e : ℤ) := Int.natCast_nonneg _; omega)]
    obtain ⟨k', h1, h2⟩ := start_mem (h := h) es (0 + 1) [0] (h.coneCard e : ℤ) ⟨0, rfl, by omega⟩
    exact ⟨k', h1, by simp; omega⟩

theorem two_lists {s : Finset EId} {ev : List EId} (hl : Lists s ev) (h2 : ev.length = 2) (k p : ℕ) (hk : k < 2) (hp : p < 2) (hpk : p ≠ k) :
    Lists s [ev.getD k 0, ev.getD p 0] := by
  obtain ⟨a, b, rfl⟩ := List.length_eq_two.1 h2
  have hab : a ≠ b := by simpa using hl.1
  have hkp : (k = 0 ∧ p = 1) ∨ (k = 1 ∧ p = 0) := by omega
  rcases hkp with ⟨rfl, rfl⟩ | ⟨rfl, rfl⟩
  · exact hl
  · refine ⟨by simpa using hab.symm, fun x => ?_⟩
    rw [← hl.2 x]
    simp [or_comm]

end OldAntichain

open OldAntichain

/-! ## The theorems -/

/-- **C108.** Antichains of at most one event: the generator yields its only ordering and ends. -/
theorem C108_small (it : Iter) (as : ArgSort) (h : Heap) (C s : Finset EId) (pastLayer : List EId) (ev : List EId)
    (he : h.sortedByLabels it as C (some s) false = .ok ev) (hc : s.card ≤ 1) (fuel : ℕ) :
    Lists s ev ∧ h.antichainPermOld it as C s pastLayer fuel = ([ev], .ok ()) := by
  have hl := sortedByLabels_lists it as C s false ev he
  have hlen := card_of_lists hl
  refine ⟨hl, ?_⟩
  unfold antichainPermOld
  rw [he]
  cases ev with
  | nil =>
    have h0 : s.card = 0 := by simpa using hlen.symm
    simp [oldYields, oldStart, h0]
  | cons e es =>
    have h1 : s.card = 1 := by simp at hlen; omega
    have h2 : es = [] := by
      rw [h1] at hlen
      simpa using hlen
    subst h2
    obtain ⟨k, hk, hk1⟩ := start_ok (h := h) [e] (by simp)
    have hk0 : k = 0 := by simpa using hk1
    subst hk0
    simp [oldYields, hk, h1]

/-- **C108.** Antichains of two events, without a past layer: the generator yields one of the two orderings and ends. -/
theorem C108_two (it : Iter) (as : ArgSort) (v : h.Valid) (C s : Finset EId) (ev : List EId)
    (he : h.sortedByLabels it as C (some s) false = .ok ev) (hs : IsAntichainSet h.Lt s) (hc : s.card = 2) :
    ∃ l, Lists s l ∧ ∀ fuel, 2 ≤ fuel → h.antichainPermOld it as C s [] fuel = ([l], .ok ()) := by
  have hl := sortedByLabels_lists it as C s false ev he
  have hlen := card_of_lists hl
  have hD := allFar_matrix v C s hs ev hl
  obtain ⟨k, hk, hkl⟩ := start_ok (h := h) ev (fun hx => by simp [hx] at hlen; omega)
  have hkc : k < s.card := hlen ▸ hkl
  obtain ⟨p, hp, hpk, -⟩ := extend_two (lt := h.lt) (ev := ev) hD hc k hkc 0 none
  refine ⟨[ev.getD k 0, ev.getD p 0], ?_, ?_⟩
  · exact two_lists hl (hlen.trans hc) k p (by omega) (by omega) hpk
  · intro fuel hf
    obtain ⟨f, rfl⟩ : ∃ f, fuel = f + 2 := ⟨fuel - 2, by omega⟩
    obtain ⟨p', hp', hpk', hx⟩ := extend_two (lt := h.lt) (ev := ev) hD hc k hkc f none
    have hpp : p' = p := by omega
    subst hpp
    unfold antichainPermOld
    rw [he]
    dsimp only
    rw [hk]
    rw [hc] at hx ⊢
    simp [oldYields, oldRun, hx]

/-- **C108.** Antichains of three or more events, without a past layer: the generator yields nothing and does not end. However many rounds its loop makes, there is no first permutation. -/
theorem C108_never (it : Iter) (as : ArgSort) (v : h.Valid) (C s : Finset EId) (ev : List EId)
    (he : h.sortedByLabels it as C (some s) false = .ok ev) (hs : IsAntichainSet h.Lt s) (hc : 3 ≤ s.card) (fuel : ℕ) :
    h.antichainPermOld it as C s [] fuel = ([], .error .outOfFuel) := by
  have hl := sortedByLabels_lists it as C s false ev he
  have hlen := card_of_lists hl
  have hD := allFar_matrix v C s hs ev hl
  obtain ⟨k, hk, hkl⟩ := start_ok (h := h) ev (fun hx => by simp [hx] at hlen; omega)
  have hx := extend_many (lt := h.lt) (ev := ev) hD hc k (hlen ▸ hkl) fuel none
  have h1 : ¬ s.card = 1 := by omega
  have h2 : ¬ 1 = s.card := by omega
  unfold antichainPermOld
  rw [he]
  dsimp only
  rw [hk]
  simp [oldYields, oldRun, hx, h2]

/-- **C108.** Antichains of two or more events with a non-empty past layer: the first request ends with an IndexError. -/
theorem C108_past (it : Iter) (as : ArgSort) (v : h.Valid) (C s : Finset EId) (pastLayer : List EId) (ev : List EId)
    (he : h.sortedByLabels it as C (some s) false = .ok ev) (hs : IsAntichainSet h.Lt s) (hc : 2 ≤ s.card) (hp : pastLayer ≠ [])
    (fuel : ℕ) (hf : 1 ≤ fuel) :
    h.antichainPermOld it as C s pastLayer fuel = ([], .error .indexError) := by
  have hl := sortedByLabels_lists it as C s false ev he
  have hlen := card_of_lists hl
  have hD := allFar_matrix v C s hs ev hl
  obtain ⟨k, hk, hkl⟩ := start_ok (h := h) ev (fun hx => by simp [hx] at hlen; omega)
  obtain ⟨f, rfl⟩ : ∃ f, fuel = f + 1 := ⟨fuel - 1, by omega⟩
  cases pastLayer with
  | nil => exact absurd rfl hp
  | cons e es =>
    have hx := extend_past (lt := h.lt) (ev := ev) hD hc k (hlen ▸ hkl) f none e es
    have h2 : ¬ 1 = s.card := by omega
    unfold antichainPermOld
    rw [he]
    dsimp only
    rw [hk]
    simp [oldYields, oldRun, hx, h2]

/-- **C108, refuted.** The docstring promises all possible permutations of the antichain. For no antichain of two or more events, no past layer and no number of rounds are all orderings yielded. -/
theorem C108_refuted (it : Iter) (as : ArgSort) (v : h.Valid) (C s : Finset EId) (pastLayer : List EId)
    (hs : IsAntichainSet h.Lt s) (hc : 2 ≤ s.card) (fuel : ℕ) :
    ¬ ∀ l, Lists s l → l ∈ (h.antichainPermOld it as C s pastLayer fuel).1 := by
  intro hall
  have hl0 : Lists s (it.ord [] s) := ⟨it.nodup _ _, fun x => it.mem _ _ _⟩
  have hr : Lists s (it.ord [] s).reverse := ⟨by simpa using hl0.1, fun x => by simpa using hl0.2 x⟩
  have hlen := card_of_lists hl0
  have m0 := hall _ hl0
  have m1 := hall _ hr
  have hne : it.ord [] s ≠ (it.ord [] s).reverse := by
    intro hx
    have hn := hl0.1
    revert hlen hx hn
    generalize it.ord [] s = l
    intro hlen hx hn
    have h1 : l[0]'(by omega) = l.reverse[0]'(by simp; omega) := by simp only [← hx]
    rw [List.getElem_reverse] at h1
    have := (List.Nodup.getElem_inj_iff hn).1 h1
    omega
  cases he : h.sortedByLabels it as C (some s) false with
  | error x =>
    unfold antichainPermOld at m0
    rw [he] at m0
    simp at m0
  | ok ev =>
    have hl := sortedByLabels_lists it as C s false ev he
    have hlen' := card_of_lists hl
    have hD := allFar_matrix v C s hs ev hl
    obtain ⟨k, hk, hkl⟩ := start_ok (h := h) ev (fun hx => by simp [hx] at hlen'; omega)
    have hc1 : ¬ 1 = s.card := by omega
    have key : (h.antichainPermOld it as C s pastLayer fuel).1.length ≤ 1 := by
      by_cases hp : pastLayer = []
      · subst hp
        by_cases h2 : s.card = 2
        · by_cases hf : 2 ≤ fuel
          · obtain ⟨l, -, hx⟩ := C108_two it as v C s ev he hs h2
            rw [hx fuel hf]; simp
          · have hf' : fuel = 0 ∨ fuel = 1 := by omega
            have hx : oldExtend h.lt ev (h.oldMatrix C s ev s.card) s.card [] fuel none [k] = ([], .error .outOfFuel) := by
              rcases hf' with rfl | rfl
              · rfl
              · exact extend_two_one hD h2 k (hlen' ▸ hkl) none
            unfold antichainPermOld
            rw [he]
            dsimp only
            rw [hk]
            simp [oldYields, oldRun, hx, hc1]
        · rw [C108_never it as v C s ev he hs (by omega)]; simp
      · by_cases hf : 1 ≤ fuel
        · rw [C108_past it as v C s pastLayer ev he hs hc hp fuel hf]; simp
        · have hf' : fuel = 0 := by omega
          subst hf'
          unfold antichainPermOld
          rw [he]
          dsimp only
          rw [hk]
          simp [oldYields, oldRun, extend_zero, hc1]
    match hq : (h.antichainPermOld it as C s pastLayer fuel).1, key with
    | [], _ => rw [hq] at m0; simp at m0
    | [x], _ =>
      rw [hq] at m0 m1
      simp at m0 m1
      exact hne (m0.trans m1.symm)

/-- The hypotheses are met: the middle of the diamond (two events) and a layer of the crown (three events). -/
theorem C108_case : LinkReachable exDiamond ∧ LinkReachable exCrown33 ∧
    exDiamond.antichainPermOld Iter.asc exArgSort {0, 1, 2, 3} {1, 2} [] 2 = ([[1, 2]], .ok ()) ∧
    exDiamond.antichainPermOld Iter.asc exArgSort {0, 1, 2, 3} {1, 2} [0] 2 = ([], .error .indexError) ∧
    exDiamond.antichainPermOld Iter.asc exArgSort {0, 1, 2, 3} {3} [1, 2] 0 = ([[3]], .ok ()) ∧
    exCrown33.antichainPermOld Iter.asc exArgSort {0, 1, 2, 3, 4, 5} {0, 1, 2} [] 50 = ([], .error .outOfFuel) ∧
    (exCrown33.sortedByLabels Iter.asc exArgSort {0, 1, 2, 3, 4, 5} (some {0, 1, 2}) false).toOption = some [0, 1, 2] := by
  refine ⟨exDiamond_reach, exCrown33_reach, ?_, ?_, ?_, ?_, ?_⟩ <;> decide +kernel

end Causets
