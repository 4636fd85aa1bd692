import Verif.Props.Paths
import Verif.Props.Cones
import Verif.Props.Sorting
import Mathlib.Data.Matrix.Mul
import Mathlib.LinearAlgebra.Matrix.Notation

/-! # C130: powers of the matrices of a causet count intervals, chains and paths -/

namespace Causets

open Heap

/-- **Specification.** The matrix of 0 and 1 (`M.astype(int)`) of a boolean matrix given by its rows. -/
def natMatrix (n : ℕ) (M : List (List Bool)) : Matrix (Fin n) (Fin n) ℕ := fun i j => if matEntry M i j = true then 1 else 0

variable {h : Heap}

/-- **C130, intervals.** Let the listed events contain everything between any two of them (e.g. all events of a causet). Then the entry `[i, j]`
of the square of `PastMatrix` is the number of events strictly between event `j` and event `i`. -/
theorem C130_intervals (v : h.Valid) (l : List EId) (hn : l.Nodup) (P : List (List Bool)) (hc : OrdConvex h.Lt l.toFinset)
    (hP : IsMatrixOf l (fun a b => h.Lt b a) P) (i j : Fin l.length) (hij : i ≠ j) :
    (natMatrix l.length P ^ 2) i j = h.intervalCard l[j] l[i] false := by
  have hne : l[j] ≠ l[i] := fun hh => hij (Fin.ext ((hn.getElem_inj_iff).1 hh).symm)
  rw [C26_intervalCard v, pow_two, Matrix.mul_apply]
  have h1 : ∀ m : Fin l.length, natMatrix l.length P i m * natMatrix l.length P m j =
      if h.Lt l[j] l[m] ∧ h.Lt l[m] l[i] then 1 else 0 := by
    intro m
    unfold natMatrix
    have e1 := hP.2.2 i m i.2 m.2
    have e2 := hP.2.2 m j m.2 j.2
    simp only [e1, e2]
    by_cases k1 : h.Lt l[m] l[i] <;> by_cases k2 : h.Lt l[j] l[m] <;> simp_all
  rw [Finset.sum_congr rfl fun m _ => h1 m, Finset.sum_ite, Finset.sum_const_zero, add_zero, Finset.sum_const, smul_eq_mul, mul_one]
  have himg : h.interval l[j] l[i] false = (Finset.univ.filter fun m : Fin l.length => h.Lt l[j] l[m] ∧ h.Lt l[m] l[i]).image (fun m => l[m]) := by
    ext x
    rw [C26_interval_open v _ _ hne, Finset.mem_image]
    constructor
    · rintro ⟨k1, k2⟩
      have hx : x ∈ l := by
        have := hc l[j] (by simp) l[i] (by simp) x k1 k2
        simpa using this
      obtain ⟨m, hm, rfl⟩ := List.mem_iff_getElem.1 hx
      exact ⟨⟨m, hm⟩, Finset.mem_filter.2 ⟨Finset.mem_univ _, k1, k2⟩, rfl⟩
    · rintro ⟨m, hm, rfl⟩
      rw [Finset.mem_filter] at hm
      exact hm.2
  rw [himg, Finset.card_image_of_injective]
  intro a b hab
  exact Fin.ext ((hn.getElem_inj_iff).1 hab)

/-- the paths of `k + 1` events from event `j` to event `i` of the list -/
def pathsIn (h : Heap) (l : List EId) (i : Fin l.length) : ℕ → Fin l.length → Finset (List EId)
  | 0, j => if i = j then {[l[j]]} else ∅
  | k + 1, j => (Finset.univ.filter fun m : Fin l.length => h.past l[m] ∩ {l[j]} = {l[j]} ∧ h.past l[m] ∩ h.future l[j] = ∅).biUnion
      fun m => (pathsIn h l i k m).image (List.cons l[j])

theorem covers_sets (v : h.Valid) (a b : EId) :
    (h.past b ∩ {a} = {a} ∧ h.past b ∩ h.future a = ∅) ↔ Covers h.Lt a b := by
  unfold Covers
  constructor
  · rintro ⟨h1, h2⟩
    have ha : a ∈ h.past b ∩ {a} := by rw [h1]; simp
    refine ⟨(v.past_eq _ _).1 (Finset.mem_inter.1 ha).1, fun x hx => ?_⟩
    have : x ∈ h.past b ∩ h.future a := Finset.mem_inter.2 ⟨(v.past_eq _ _).2 hx.2, (v.future_eq _ _).2 hx.1⟩
    rw [h2] at this
    simp at this
  · rintro ⟨h1, h2⟩
    refine ⟨?_, ?_⟩
    · rw [Finset.inter_eq_right, Finset.singleton_subset_iff]
      exact (v.past_eq _ _).2 h1
    · rw [Finset.eq_empty_iff_forall_notMem]
      intro x hx
      rw [Finset.mem_inter] at hx
      exact h2 x ⟨(v.future_eq _ _).1 hx.2, (v.past_eq _ _).1 hx.1⟩

theorem linkPath_le {lt : ℕ → ℕ → Prop} (o : StrictOrd lt) : ∀ (q : List ℕ) (a b : ℕ), LinkPath lt a b q → a = b ∨ lt a b
  | [], _, _, hp => by simp [LinkPath] at hp
  | [x], a, b, hp => by
    obtain ⟨h1, h2, -⟩ := hp
    simp at h1 h2
    exact Or.inl (h1 ▸ h2)
  | x :: y :: t, a, b, hp => by
    obtain ⟨h1, h2, h3⟩ := hp
    simp at h1
    subst h1
    rw [List.isChain_cons_cons] at h3
    have := linkPath_le o (y :: t) y b ⟨rfl, by simpa using h2, h3.2⟩
    rcases this with rfl | this
    · exact Or.inr h3.1.1
    · exact Or.inr (o.trans _ _ _ h3.1.1 this)

theorem mem_pathsIn (v : h.Valid) (l : List EId) (hn : l.Nodup) (hc : OrdConvex h.Lt l.toFinset) (i : Fin l.length) :
    ∀ (k : ℕ) (j : Fin l.length) (q : List EId), q ∈ pathsIn h l i k j ↔ LinkPath h.Lt l[j] l[i] q ∧ q.length = k + 1
  | 0, j, q => by
    unfold pathsIn
    constructor
    · intro hq
      split at hq
      · next hij =>
        subst hij
        rw [Finset.mem_singleton] at hq
        subst hq
        simp [LinkPath]
      · simp at hq
    · rintro ⟨⟨h1, h2, -⟩, h3⟩
      match q, h3, h1, h2 with
      | [x], _, h1, h2 =>
        simp at h1 h2
        subst h1
        have : i = j := Fin.ext ((hn.getElem_inj_iff).1 h2.symm)
        rw [if_pos this]; simp
  | k + 1, j, q => by
    have ih := mem_pathsIn v l hn hc i k
    unfold pathsIn
    simp only [Finset.mem_biUnion, Finset.mem_filter, Finset.mem_univ, true_and, Finset.mem_image, covers_sets v]
    constructor
    · rintro ⟨m, hm, p, hp, rfl⟩
      obtain ⟨⟨p1, p2, p3⟩, p4⟩ := (ih m p).1 hp
      match p, p1, p2, p3, p4 with
      | y :: t, p1, p2, p3, p4 =>
        simp only [List.head?_cons, Option.some.injEq] at p1
        subst p1
        exact ⟨⟨rfl, by simpa using p2, List.isChain_cons_cons.2 ⟨hm, p3⟩⟩, by simpa using p4⟩
    · rintro ⟨⟨h1, h2, h3⟩, h4⟩
      match q, h1, h2, h3, h4 with
      | x :: y :: t, h1, h2, h3, h4 =>
        simp only [List.head?_cons, Option.some.injEq] at h1
        subst h1
        rw [List.isChain_cons_cons] at h3
        have hp : LinkPath h.Lt y l[i] (y :: t) := ⟨rfl, by simpa using h2, h3.2⟩
        have hy : y ∈ l := by
          rcases linkPath_le v.order _ _ _ hp with heq | hlt
          · rw [heq]; exact List.getElem_mem _
          · have := hc l[j] (by simp) l[i] (by simp) y h3.1.1 hlt
            simpa using this
        obtain ⟨m, hm, rfl⟩ := List.mem_iff_getElem.1 hy
        exact ⟨⟨m, hm⟩, h3.1, _, (ih ⟨m, hm⟩ _).2 ⟨hp, by simpa using h4⟩, rfl⟩

/-- **C130, counting paths.** The entry `[i, j]` of the `k`-th power of `LinkPastMatrix` is the number of paths of `k + 1` events (`k` links) from
event `j` to event `i`. -/
theorem C130_count (v : h.Valid) (l : List EId) (hn : l.Nodup) (L : List (List Bool)) (hc : OrdConvex h.Lt l.toFinset)
    (hL : IsMatrixOf l (fun a b => Covers h.Lt b a) L) (k : ℕ) (i j : Fin l.length) (ps : List (List EId)) (hps : ps.Nodup)
    (hmem : ∀ q, q ∈ ps ↔ LinkPath h.Lt l[j] l[i] q ∧ q.length = k + 1) :
    (natMatrix l.length L ^ k) i j = ps.length := by
  have hset : ps.toFinset = pathsIn h l i k j := by
    ext q; rw [List.mem_toFinset, hmem, mem_pathsIn v l hn hc]
  rw [← List.toFinset_card_of_nodup hps, hset]
  clear hset hmem hps ps
  induction k generalizing j with
  | zero =>
    rw [pow_zero, Matrix.one_apply]
    unfold pathsIn
    split <;> simp
  | succ k ih =>
    rw [pow_succ, Matrix.mul_apply]
    unfold pathsIn
    rw [Finset.card_biUnion]
    · rw [Finset.sum_filter]
      refine Finset.sum_congr rfl fun m _ => ?_
      rw [ih m, Finset.card_image_of_injective _ (List.cons_injective)]
      unfold natMatrix
      have e2 := hL.2.2 m j m.2 j.2
      by_cases hh : Covers h.Lt l[j] l[m]
      · rw [if_pos (e2.2 hh), if_pos ((covers_sets v _ _).2 hh), mul_one]
      · rw [if_neg (fun h' => hh (e2.1 h')), if_neg (fun h' => hh ((covers_sets v _ _).1 h')), mul_zero]
    · intro m1 _ m2 _ hne
      rw [Function.onFun, Finset.disjoint_left]
      intro q h1 h2
      obtain ⟨p1, k1, rfl⟩ := Finset.mem_image.1 h1
      obtain ⟨p2, k2, h3⟩ := Finset.mem_image.1 h2
      have : p2 = p1 := by simpa using h3
      subst this
      have e1 := ((mem_pathsIn v l hn hc i k m1 p2).1 k1).1.1
      have e2 := ((mem_pathsIn v l hn hc i k m2 p2).1 k2).1.1
      rw [e1] at e2
      simp only [Option.some.injEq] at e2
      exact hne (Fin.ext ((hn.getElem_inj_iff).1 e2))

/-- **C130, `Paths`.** `Paths(e_j, e_i, k + 1)` yields as many paths as the entry `[i, j]` of the `k`-th power of `LinkPastMatrix` says. -/
theorem C130_paths (it : Iter) (v : h.Valid) (l : List EId) (hn : l.Nodup) (L : List (List Bool)) (hc : OrdConvex h.Lt l.toFinset)
    (hL : IsMatrixOf l (fun a b => Covers h.Lt b a) L) (k : ℕ) (i j : Fin l.length) :
    h.AnswersWith (paths it l[j] l[i] (.int (k + 1 : ℕ))) (fun r => ∃ ps, r = .ok ps ∧ ps.length = (natMatrix l.length L ^ k) i j) := by
  refine AnswersWith.mono (C33_paths it v l[j] l[i] (.int (k + 1 : ℕ)) ⟨by simp, by simp, by simp⟩ _ _ rfl) ?_
  rintro _ ⟨ps, rfl, hps, hmem⟩
  refine ⟨ps, rfl, (C130_count v l hn L hc hL k i j ps hps fun q => ?_).symm⟩
  rw [hmem]
  refine and_congr_right fun _ => ?_
  constructor
  · rintro ⟨h1, h2⟩
    omega
  · intro h1
    omega

theorem ordConvex_of_lists (v : h.Valid) {C : Finset EId} {l : List EId} (hl : Lists C l) (hC : Closed h.Lt C) : OrdConvex h.Lt l.toFinset := by
  have : l.toFinset = C := by ext x; rw [List.mem_toFinset, hl.2]
  rw [this]
  exact fun a ha _ _ x hx _ => hC a ha x (Or.inl hx)

/-- **C130, the matrices of a causet.** For any listing of the events of a causet: the square of `PastMatrix` counts the events between two
events, and the powers of `LinkPastMatrix` count the paths that `Paths` yields. -/
theorem C130_causet (it : Iter) (as : ArgSort) (v : h.Valid) (C : Finset EId) (hC : Closed h.Lt C) (l : List EId) (hl : Lists C l) :
    (∃ P, h.pastMatrix it as C (some l) = .ok P ∧ ∀ i j : Fin l.length, i ≠ j →
      (natMatrix l.length P ^ 2) i j = h.intervalCard l[j] l[i] false) ∧
    h.AnswersWith (linkPastMatrix it as C (some l)) (fun r => ∃ L, r = .ok L ∧ ∀ (k : ℕ) (i j : Fin l.length),
      h.AnswersWith (paths it l[j] l[i] (.int (k + 1 : ℕ))) (fun r => ∃ ps, r = .ok ps ∧ ps.length = (natMatrix l.length L ^ k) i j)) := by
  have hc := ordConvex_of_lists v hl hC
  obtain ⟨⟨P, hP, hPM⟩, -⟩ := C37_given (h := h) it as C l
  refine ⟨⟨P, hP, C130_intervals v l hl.1 P hc hPM⟩, AnswersWith.mono (C37_links it as v C l).1 ?_⟩
  rintro _ ⟨L, rfl, hL⟩
  exact ⟨L, rfl, C130_paths it v l hl.1 L hc hL⟩

/-- **C130, default order.** The same for the default listing, which `PastMatrix()` and `LinkPastMatrix()` share (labels that can be sorted). -/
theorem C130_default (it : Iter) (as : ArgSort) (v : h.Valid) (C : Finset EId) (hC : Closed h.Lt C) (z : EId → ℤ) (hz : IntLabels h C z) :
    ∃ l P, Lists C l ∧ h.pastMatrix it as C none = .ok P ∧
      (∀ i j : Fin l.length, i ≠ j → (natMatrix l.length P ^ 2) i j = h.intervalCard l[j] l[i] false) ∧
      h.AnswersWith (linkPastMatrix it as C none) (fun r => ∃ L, r = .ok L ∧ ∀ (k : ℕ) (i j : Fin l.length),
        h.AnswersWith (paths it l[j] l[i] (.int (k + 1 : ℕ))) (fun r => ∃ ps, r = .ok ps ∧ ps.length = (natMatrix l.length L ^ k) i j)) := by
  obtain ⟨l, P, hl, hP, hPM, hL⟩ := C37_links_default it as v C z hz
  have hc := ordConvex_of_lists v hl hC
  refine ⟨l, P, hl, hP, C130_intervals v l hl.1 P hc hPM, AnswersWith.mono hL ?_⟩
  rintro _ ⟨L, rfl, hLM⟩
  exact ⟨L, rfl, C130_paths it v l hl.1 L hc hLM⟩

/-- A concrete case: in the diamond two events lie between the bottom and the top, and the square of the matrix says so. -/
example : exDiamond.Valid ∧ Lists {0, 1, 2, 3} [0, 1, 2, 3] ∧
    (natMatrix 4 (exDiamond.pastMatrixOf [0, 1, 2, 3]) ^ 2) 3 0 = 2 ∧ exDiamond.intervalCard 0 3 false = 2 := by
  refine ⟨exDiamond_valid, ⟨by decide, fun x => by simp⟩, ?_, by decide⟩
  have : natMatrix 4 (exDiamond.pastMatrixOf [0, 1, 2, 3]) = !![0, 0, 0, 0; 1, 0, 0, 0; 1, 0, 0, 0; 1, 1, 1, 0] := by
    ext i j; fin_cases i <;> fin_cases j <;> decide
  rw [this]
  decide

/-- Why the matrix must list everything between its events: without the middle of the diamond the square is 0. -/
example : (natMatrix 2 (exDiamond.pastMatrixOf [0, 3]) ^ 2) 1 0 = 0 := by
  have : natMatrix 2 (exDiamond.pastMatrixOf [0, 3]) = !![0, 0; 1, 0] := by
    ext i j; fin_cases i <;> fin_cases j <;> decide
  rw [this]
  decide

end Causets
