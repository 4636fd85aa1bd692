import Verif.Props.MatrixPowers
import Mathlib.Data.Set.Card
import Mathlib.Algebra.Ring.GeomSum
import Mathlib.LinearAlgebra.Matrix.Notation

/-! # C133: powers of the matrices of a causet count chains; the sum of all powers is the inverse of `1 - P` -/

namespace Causets

open Heap

/-- **Specification.** `q` is a chain of events of the list `l` from `a` to `b`, listed from the past to the future. -/
def ChainFrom (lt : ℕ → ℕ → Prop) (l : List ℕ) (a b : ℕ) (q : List ℕ) : Prop :=
  q.head? = some a ∧ q.getLast? = some b ∧ (∀ x ∈ q, x ∈ l) ∧ q.Pairwise lt

open Classical in
/-- the `R`-sequences of `k + 1` listed events from event `j` to event `i` of the list -/
noncomputable def seqsIn (R : ℕ → ℕ → Prop) (l : List ℕ) (i : Fin l.length) : ℕ → Fin l.length → Finset (List ℕ)
  | 0, j => if i = j then {[l[j]]} else ∅
  | k + 1, j => (Finset.univ.filter fun m : Fin l.length => R l[j] l[m]).biUnion fun m => (seqsIn R l i k m).image (List.cons l[j])

theorem mem_seqsIn (R : ℕ → ℕ → Prop) (l : List ℕ) (hn : l.Nodup) (i : Fin l.length) :
    ∀ (k : ℕ) (j : Fin l.length) (q : List ℕ), q ∈ seqsIn R l i k j ↔
      q.head? = some l[j] ∧ q.getLast? = some l[i] ∧ (∀ x ∈ q, x ∈ l) ∧ q.IsChain R ∧ q.length = k + 1
  | 0, j, q => by
    unfold seqsIn
    constructor
    · intro hq
      split at hq
      · next hij =>
        subst hij
        rw [Finset.mem_singleton] at hq
        subst hq
        simp
      · simp at hq
    · rintro ⟨h1, h2, -, -, h3⟩
      match q, h3, h1, h2 with
      | [x], _, h1, h2 =>
        simp at h1 h2
        subst h1
        have : i = j := Fin.ext ((hn.getElem_inj_iff).1 h2.symm)
        rw [if_pos this]; simp
  | k + 1, j, q => by
    have ih := mem_seqsIn R l hn i k
    unfold seqsIn
    simp only [Finset.mem_biUnion, Finset.mem_filter, Finset.mem_univ, true_and, Finset.mem_image]
    constructor
    · rintro ⟨m, hm, p, hp, rfl⟩
      obtain ⟨p1, p2, p3, p4, p5⟩ := (ih m p).1 hp
      match p, p1, p2, p3, p4, p5 with
      | y :: t, p1, p2, p3, p4, p5 =>
        simp only [List.head?_cons, Option.some.injEq] at p1
        subst p1
        refine ⟨rfl, by simpa using p2, ?_, List.isChain_cons_cons.2 ⟨hm, p4⟩, by simpa using p5⟩
        intro x hx
        rcases List.mem_cons.1 hx with rfl | hx
        · exact List.getElem_mem _
        · exact p3 x hx
    · rintro ⟨h1, h2, h3, h4, h5⟩
      match q, h1, h2, h3, h4, h5 with
      | x :: y :: t, h1, h2, h3, h4, h5 =>
        simp only [List.head?_cons, Option.some.injEq] at h1
        subst h1
        rw [List.isChain_cons_cons] at h4
        obtain ⟨m, hm, rfl⟩ := List.mem_iff_getElem.1 (h3 y (by simp))
        refine ⟨⟨m, hm⟩, h4.1, _, (ih ⟨m, hm⟩ _).2 ⟨rfl, by simpa using h2, fun z hz => h3 z (List.mem_cons_of_mem _ hz), h4.2, by simpa using h5⟩, rfl⟩

theorem card_seqsIn (R : ℕ → ℕ → Prop) (l : List ℕ) (hn : l.Nodup) (M : List (List Bool)) (hM : IsMatrixOf l (fun a b => R b a) M)
    (i : Fin l.length) (k : ℕ) (j : Fin l.length) : (natMatrix l.length M ^ k) i j = (seqsIn R l i k j).card := by
  induction k generalizing j with
  | zero =>
    rw [pow_zero, Matrix.one_apply]
    unfold seqsIn
    split <;> simp
  | succ k ih =>
    rw [pow_succ, Matrix.mul_apply]
    unfold seqsIn
    rw [Finset.card_biUnion]
    · rw [Finset.sum_filter]
      refine Finset.sum_congr rfl fun m _ => ?_
      rw [ih m, Finset.card_image_of_injective _ (List.cons_injective)]
      unfold natMatrix
      have e2 := hM.2.2 m j m.2 j.2
      by_cases hh : R l[j] l[m]
      · rw [if_pos (e2.2 hh), if_pos hh, mul_one]
      · rw [if_neg (fun h' => hh (e2.1 h')), if_neg hh, mul_zero]
    · intro m1 _ m2 _ hne
      rw [Function.onFun, Finset.disjoint_left]
      intro q h1 h2
      obtain ⟨p1, k1, rfl⟩ := Finset.mem_image.1 h1
      obtain ⟨p2, k2, h3⟩ := Finset.mem_image.1 h2
      have : p2 = p1 := by simpa using h3
      subst this
      have e1 := ((mem_seqsIn R l hn i k m1 p2).1 k1).1
      have e2 := ((mem_seqsIn R l hn i k m2 p2).1 k2).1
      rw [e1] at e2
      simp only [Option.some.injEq] at e2
      exact hne (Fin.ext ((hn.getElem_inj_iff).1 e2))

variable {h : Heap}

theorem chain_iff_pairwise (v : h.Valid) (q : List ℕ) : q.IsChain h.Lt ↔ q.Pairwise h.Lt := by
  haveI : IsTrans ℕ h.Lt := ⟨fun a b c hab hbc => v.order.trans a b c hab hbc⟩
  exact List.isChain_iff_pairwise

/-- **C133, powers.** The entry `[i, j]` of the `k`-th power of `PastMatrix` is the number of chains of `k + 1` listed events from event `j` to
event `i`, for every list of different events. -/
theorem C133_powers (v : h.Valid) (l : List EId) (hn : l.Nodup) (P : List (List Bool)) (hP : IsMatrixOf l (fun a b => h.Lt b a) P)
    (k : ℕ) (i j : Fin l.length) :
    {q | ChainFrom h.Lt l l[j] l[i] q ∧ q.length = k + 1}.Finite ∧
    (natMatrix l.length P ^ k) i j = {q | ChainFrom h.Lt l l[j] l[i] q ∧ q.length = k + 1}.ncard := by
  have hset : {q | ChainFrom h.Lt l l[j] l[i] q ∧ q.length = k + 1} = (seqsIn h.Lt l i k j : Set (List ℕ)) := by
    ext q
    simp only [Set.mem_setOf_eq, Finset.mem_coe, mem_seqsIn h.Lt l hn, ChainFrom, chain_iff_pairwise v, and_assoc]
  rw [hset, Set.ncard_coe_finset]
  exact ⟨Finset.finite_toSet _, card_seqsIn h.Lt l hn P hP i k j⟩

/-- **C133, zero powers.** The `k`-th power is 0 exactly if there is no chain of `k + 1` listed events. -/
theorem C133_zero (v : h.Valid) (l : List EId) (hn : l.Nodup) (P : List (List Bool)) (hP : IsMatrixOf l (fun a b => h.Lt b a) P) (k : ℕ) :
    natMatrix l.length P ^ k = 0 ↔ ∀ q : List EId, (∀ x ∈ q, x ∈ l) → q.Pairwise h.Lt → q.length ≤ k := by
  constructor
  · intro h0 q hq1 hq2
    by_contra hlt
    set p := q.take (k + 1) with hp
    have hpl : p.length = k + 1 := by rw [hp, List.length_take]; omega
    have hp1 : ∀ x ∈ p, x ∈ l := fun x hx => hq1 x (List.mem_of_mem_take hx)
    have hp2 : p.Pairwise h.Lt := hq2.sublist (List.take_sublist _ _)
    have hne : p ≠ [] := by rintro h'; rw [h'] at hpl; simp at hpl
    obtain ⟨j, hj, hje⟩ := List.mem_iff_getElem.1 (hp1 _ (List.head_mem hne))
    obtain ⟨i, hi, hie⟩ := List.mem_iff_getElem.1 (hp1 _ (List.getLast_mem hne))
    obtain ⟨hfin, hcard⟩ := C133_powers v l hn P hP k ⟨i, hi⟩ ⟨j, hj⟩
    rw [h0] at hcard
    have := (Set.ncard_eq_zero hfin).1 hcard.symm
    have hmem : p ∈ ({q | ChainFrom h.Lt l l[j] l[i] q ∧ q.length = k + 1} : Set (List ℕ)) :=
      ⟨⟨by rw [hje, List.head?_eq_some_head hne], by rw [hie, List.getLast?_eq_some_getLast hne], hp1, hp2⟩, hpl⟩
    have h2 : p ∈ (∅ : Set (List ℕ)) := by rw [← this]; exact hmem
    exact h2
  · intro hq
    ext i j
    obtain ⟨hfin, hcard⟩ := C133_powers v l hn P hP k i j
    rw [hcard, Matrix.zero_apply, Set.ncard_eq_zero hfin, Set.eq_empty_iff_forall_notMem]
    rintro q ⟨⟨-, -, h1, h2⟩, h3⟩
    have := hq q h1 h2
    omega

theorem pairwise_lt_nodup (v : h.Valid) {q : List EId} (hq : q.Pairwise h.Lt) : q.Nodup :=
  hq.imp fun {a b} hab => by rintro rfl; exact v.order.irrefl _ hab

/-- **C133, nilpotent.** The power of `PastMatrix` to the number of its events is 0. -/
theorem C133_nilpotent (v : h.Valid) (l : List EId) (hn : l.Nodup) (P : List (List Bool)) (hP : IsMatrixOf l (fun a b => h.Lt b a) P) :
    natMatrix l.length P ^ l.length = 0 :=
  (C133_zero v l hn P hP _).2 fun _ h1 h2 => ((pairwise_lt_nodup v h2).subperm h1).length_le

/-- **Specification.** The same matrix with integers as entries. -/
def intMatrix (n : ℕ) (M : List (List Bool)) : Matrix (Fin n) (Fin n) ℤ := fun i j => if matEntry M i j = true then 1 else 0

theorem intMatrix_pow (n : ℕ) (M : List (List Bool)) (k : ℕ) (i j : Fin n) :
    (intMatrix n M ^ k) i j = ((natMatrix n M ^ k) i j : ℕ) := by
  have : intMatrix n M = (natMatrix n M).map (Nat.castRingHom ℤ) := by
    ext i j
    rw [Matrix.map_apply, Nat.coe_castRingHom]
    unfold intMatrix natMatrix
    split <;> simp
  rw [this, ← RingHom.mapMatrix_apply, ← map_pow, RingHom.mapMatrix_apply, Matrix.map_apply, Nat.coe_castRingHom]

/-- **C133, all chains.** `1 - P` is invertible, and the entry `[i, j]` of the inverse is the number of all chains of listed events from event `j`
to event `i`. -/
theorem C133_inverse (v : h.Valid) (l : List EId) (hn : l.Nodup) (P : List (List Bool)) (hP : IsMatrixOf l (fun a b => h.Lt b a) P) :
    ∃ K : Matrix (Fin l.length) (Fin l.length) ℤ, (1 - intMatrix l.length P) * K = 1 ∧ K * (1 - intMatrix l.length P) = 1 ∧
      ∀ i j : Fin l.length, {q | ChainFrom h.Lt l l[j] l[i] q}.Finite ∧ K i j = {q | ChainFrom h.Lt l l[j] l[i] q}.ncard := by
  have h0 : intMatrix l.length P ^ l.length = 0 := by
    ext i j
    rw [intMatrix_pow, C133_nilpotent v l hn P hP]; simp
  refine ⟨∑ k ∈ Finset.range l.length, intMatrix l.length P ^ k, ?_, ?_, fun i j => ?_⟩
  · rw [mul_neg_geom_sum, h0, sub_zero]
  · rw [geom_sum_mul_neg, h0, sub_zero]
  · have hset : {q | ChainFrom h.Lt l l[j] l[i] q} = (((Finset.range l.length).biUnion fun k => seqsIn h.Lt l i k j : Finset (List ℕ)) : Set (List ℕ)) := by
      ext q
      simp only [Set.mem_setOf_eq, Finset.mem_coe, Finset.mem_biUnion, Finset.mem_range, mem_seqsIn h.Lt l hn, ChainFrom, chain_iff_pairwise v]
      constructor
      · rintro ⟨h1, h2, h3, h4⟩
        have hl := ((pairwise_lt_nodup v h4).subperm h3).length_le
        have hpos : q.length ≠ 0 := by
          rintro h'
          rw [List.length_eq_zero_iff] at h'
          subst h'
          simp at h1
        exact ⟨q.length - 1, by omega, h1, h2, h3, h4, by omega⟩
      · rintro ⟨k, -, h1, h2, h3, h4, -⟩
        exact ⟨h1, h2, h3, h4⟩
    rw [hset, Set.ncard_coe_finset]
    refine ⟨Finset.finite_toSet _, ?_⟩
    rw [Finset.card_biUnion, Matrix.sum_apply, Nat.cast_sum]
    · refine Finset.sum_congr rfl fun k _ => ?_
      rw [intMatrix_pow, card_seqsIn h.Lt l hn P hP]
    · intro k1 _ k2 _ hne
      rw [Function.onFun, Finset.disjoint_left]
      intro q h1 h2
      have e1 := ((mem_seqsIn h.Lt l hn i k1 j q).1 h1).2.2.2.2
      have e2 := ((mem_seqsIn h.Lt l hn i k2 j q).1 h2).2.2.2.2
      omega

theorem linkPath_pairwise (v : h.Valid) {a b : EId} {q : List EId} (hq : LinkPath h.Lt a b q) : q.Pairwise h.Lt :=
  (chain_iff_pairwise v q).1 (hq.2.2.imp fun _ _ hab => hab.1)

/-- **C133, all paths.** If the list contains everything between its events, the same holds for `LinkPastMatrix`: `1 - L` is invertible, and the entry
`[i, j]` of the inverse is the number of paths that `Paths(e_j, e_i)` yields. -/
theorem C133_paths (it : Iter) (v : h.Valid) (l : List EId) (hn : l.Nodup) (L : List (List Bool)) (hc : OrdConvex h.Lt l.toFinset)
    (hL : IsMatrixOf l (fun a b => Covers h.Lt b a) L) :
    ∃ K : Matrix (Fin l.length) (Fin l.length) ℤ, (1 - intMatrix l.length L) * K = 1 ∧ K * (1 - intMatrix l.length L) = 1 ∧
      ∀ i j : Fin l.length, h.AnswersWith (paths it l[j] l[i] (.str "any")) (fun r => ∃ ps, r = .ok ps ∧ K i j = ps.length) := by
  have hlen : ∀ (i j : Fin l.length) (q : List EId), LinkPath h.Lt l[j] l[i] q → q.length ≤ l.length ∧ q.length ≠ 0 := by
    intro i j q hq
    have hmem : ∀ (k : ℕ), q.length = k + 1 → (∀ x ∈ q, x ∈ l) := by
      intro k hk x hx
      have h1 : ∀ (q : List EId) (a b : EId), LinkPath h.Lt a b q → ∀ x ∈ q, (a = x ∨ h.Lt a x) ∧ (x = b ∨ h.Lt x b) := by
        intro q
        induction q with
        | nil => intro a b hq; simp [LinkPath] at hq
        | cons y t ih =>
          intro a b hq x hx
          have hy : y = a := by have := hq.1; simpa using this
          subst hy
          have hle := linkPath_le v.order _ _ _ hq
          rcases List.mem_cons.1 hx with rfl | hx'
          · exact ⟨Or.inl rfl, hle⟩
          · match t, hx', hq, ih with
            | z :: t', hx', hq, ih =>
              obtain ⟨-, q2, q3⟩ := hq
              rw [List.isChain_cons_cons] at q3
              obtain ⟨k1, k2⟩ := ih z b ⟨rfl, by simpa using q2, q3.2⟩ x hx'
              refine ⟨Or.inr ?_, k2⟩
              rcases k1 with rfl | k1
              · exact q3.1.1
              · exact v.order.trans _ _ _ q3.1.1 k1
      obtain ⟨k1, k2⟩ := h1 q _ _ hq x hx
      rcases k1 with rfl | k1
      · exact List.getElem_mem _
      rcases k2 with rfl | k2
      · exact List.getElem_mem _
      have := hc l[j] (by simp) l[i] (by simp) x k1 k2
      simpa using this
    have hpos : q.length ≠ 0 := by
      rintro h'
      rw [List.length_eq_zero_iff] at h'
      subst h'
      simp [LinkPath] at hq
    exact ⟨((pairwise_lt_nodup v (linkPath_pairwise v hq)).subperm (hmem (q.length - 1) (by omega))).length_le, hpos⟩
  have h0 : intMatrix l.length L ^ l.length = 0 := by
    ext i j
    rw [intMatrix_pow, C130_count v l hn L hc hL l.length i j [] List.nodup_nil]
    · simp
    · intro q
      simp only [List.not_mem_nil, false_iff, not_and]
      intro hq
      have := (hlen i j q hq).1
      omega
  refine ⟨∑ k ∈ Finset.range l.length, intMatrix l.length L ^ k, ?_, ?_, fun i j => ?_⟩
  · rw [mul_neg_geom_sum, h0, sub_zero]
  · rw [geom_sum_mul_neg, h0, sub_zero]
  · refine AnswersWith.mono (C33_all it v l[j] l[i]) ?_
    rintro _ ⟨ps, rfl, hnd, hps⟩
    refine ⟨ps, rfl, ?_⟩
    rw [Matrix.sum_apply]
    have hk : ∀ k, (intMatrix l.length L ^ k) i j = ((ps.toFinset.filter fun q => q.length = k + 1).card : ℕ) := by
      intro k
      have hps2 : (ps.filter fun q => q.length = k + 1).Nodup := hnd.filter _
      rw [intMatrix_pow, C130_count v l hn L hc hL k i j (ps.filter fun q => q.length = k + 1) hps2, ← List.toFinset_card_of_nodup hps2,
        List.toFinset_filter]
      · simp
      · intro q; rw [List.mem_filter, hps]; simp
    rw [Finset.sum_congr rfl fun k _ => hk k, ← Nat.cast_sum, ← List.toFinset_card_of_nodup hnd]
    congr 1
    rw [Finset.card_eq_sum_card_fiberwise (f := fun q : List EId => q.length - 1) (t := Finset.range l.length)]
    · refine Finset.sum_congr rfl fun k _ => ?_
      congr 1
      ext q
      simp only [Finset.mem_filter, List.mem_toFinset, hps]
      refine and_congr_right fun hq => ?_
      have := (hlen i j q hq).2
      omega
    · intro q hq
      have hq' : LinkPath h.Lt l[j] l[i] q := (hps q).1 (by simpa using hq)
      have := hlen i j q hq'
      simp only [Finset.coe_range, Set.mem_Iio]
      omega

/-- **C133, the matrices of a causet.** For any listing of the events of a causet `1 - PastMatrix` and `1 - LinkPastMatrix` are invertible; the
inverses count the chains between two events and the paths that `Paths` yields. -/
theorem C133_causet (it : Iter) (as : ArgSort) (v : h.Valid) (C : Finset EId) (hC : Closed h.Lt C) (l : List EId) (hl : Lists C l) :
    (∃ P, h.pastMatrix it as C (some l) = .ok P ∧ natMatrix l.length P ^ l.length = 0 ∧
      ∃ K : Matrix (Fin l.length) (Fin l.length) ℤ, (1 - intMatrix l.length P) * K = 1 ∧ K * (1 - intMatrix l.length P) = 1 ∧
        ∀ i j : Fin l.length, K i j = {q | ChainFrom h.Lt l l[j] l[i] q}.ncard) ∧
    h.AnswersWith (linkPastMatrix it as C (some l)) (fun r => ∃ L, r = .ok L ∧
      ∃ K : Matrix (Fin l.length) (Fin l.length) ℤ, (1 - intMatrix l.length L) * K = 1 ∧ K * (1 - intMatrix l.length L) = 1 ∧
        ∀ i j : Fin l.length, h.AnswersWith (paths it l[j] l[i] (.str "any")) (fun r => ∃ ps, r = .ok ps ∧ K i j = ps.length)) := by
  have hc := ordConvex_of_lists v hl hC
  obtain ⟨⟨P, hP, hPM⟩, -⟩ := C37_given (h := h) it as C l
  obtain ⟨K, k1, k2, k3⟩ := C133_inverse v l hl.1 P hPM
  refine ⟨⟨P, hP, C133_nilpotent v l hl.1 P hPM, K, k1, k2, fun i j => (k3 i j).2⟩, AnswersWith.mono (C37_links it as v C l).1 ?_⟩
  rintro _ ⟨L, rfl, hL⟩
  exact ⟨L, rfl, C133_paths it v l hl.1 L hc hL⟩

/-- A concrete case: in the diamond there are three chains from the bottom to the top (one direct and two through the middle), and two paths. -/
example : exDiamond.Valid ∧ Lists {0, 1, 2, 3} [0, 1, 2, 3] ∧
    (1 - intMatrix 4 (exDiamond.pastMatrixOf [0, 1, 2, 3])) * !![1, 0, 0, 0; 1, 1, 0, 0; 1, 0, 1, 0; 3, 1, 1, 1] = 1 ∧
    ChainFrom exDiamond.Lt [0, 1, 2, 3] 0 3 [0, 3] ∧ ChainFrom exDiamond.Lt [0, 1, 2, 3] 0 3 [0, 1, 3] := by
  refine ⟨exDiamond_valid, ⟨by decide, fun x => by simp⟩, ?_, ?_, ?_⟩
  · have : intMatrix 4 (exDiamond.pastMatrixOf [0, 1, 2, 3]) = !![0, 0, 0, 0; 1, 0, 0, 0; 1, 0, 0, 0; 1, 1, 1, 0] := by
      ext i j; fin_cases i <;> fin_cases j <;> decide
    rw [this]
    decide
  · refine ⟨rfl, rfl, by simp, ?_⟩
    unfold Heap.Lt; decide
  · refine ⟨rfl, rfl, by simp, ?_⟩
    unfold Heap.Lt; decide

end Causets
