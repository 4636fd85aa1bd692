import Verif.Props.Construct

/-! # C131: symmetries of 2D orders: inverse, reversed and complementary permutations -/

namespace Causets

open Heap

/-- **Specification.** `Q` is the inverse permutation of `P`: `P[i] = k` exactly if `Q[k] = i`, counted from 1. -/
def InversePermutation (P Q : List ℤ) : Prop :=
  Q.length = P.length ∧ ∀ i k : ℕ, P[i]? = some ((k : ℤ) + 1) ↔ Q[k]? = some ((i : ℤ) + 1)

/-- **Specification.** The complement of a permutation: every number `x` is replaced by `n + 1 - x`. -/
def complementOf (P : List ℤ) : List ℤ := P.map fun x => (P.length : ℤ) + 1 - x

theorem IsPermutation.range {P : List ℤ} (hP : IsPermutation P) {x : ℤ} (hx : x ∈ P) : ∃ k : ℕ, k < P.length ∧ x = (k : ℤ) + 1 := by
  have := hP.mem_iff.1 hx
  rw [List.mem_map] at this
  obtain ⟨k, hk, rfl⟩ := this
  exact ⟨k, List.mem_range.1 hk, rfl⟩

theorem InversePermutation.isPermutation {P Q : List ℤ} (hP : IsPermutation P) (hQ : InversePermutation P Q) : IsPermutation Q := by
  refine isPermutation_of_mem fun i hi => ?_
  rw [hQ.1] at hi
  obtain ⟨k, -, hk⟩ := hP.range (List.getElem_mem hi)
  exact List.mem_of_getElem? ((hQ.2 i k).1 (by rw [List.getElem?_eq_getElem hi, hk]))

theorem IsPermutation.reverse {P : List ℤ} (hP : IsPermutation P) : IsPermutation P.reverse := by
  unfold IsPermutation at *
  rw [List.length_reverse]
  exact P.reverse_perm.trans hP

theorem IsPermutation.complement {P : List ℤ} (hP : IsPermutation P) : IsPermutation (complementOf P) := by
  refine isPermutation_of_mem fun k hk => ?_
  simp only [complementOf, List.length_map] at hk
  rw [complementOf, List.mem_map]
  exact ⟨((P.length - 1 - k : ℕ) : ℤ) + 1, hP.mem _ (by omega), by omega⟩

theorem standsBefore_reverse (P : List ℤ) (x y : ℤ) : StandsBefore P.reverse x y ↔ StandsBefore P y x := by
  have key : ∀ (P : List ℤ) (x y : ℤ), StandsBefore P x y → StandsBefore P.reverse y x := by
    rintro P x y ⟨i, j, hij, hi, hj⟩
    have h1 := (List.getElem?_eq_some_iff.1 hi).1
    have h2 := (List.getElem?_eq_some_iff.1 hj).1
    refine ⟨P.length - 1 - j, P.length - 1 - i, by omega, ?_, ?_⟩
    · rw [List.getElem?_reverse (by omega), show P.length - 1 - (P.length - 1 - j) = j by omega]; exact hj
    · rw [List.getElem?_reverse (by omega), show P.length - 1 - (P.length - 1 - i) = i by omega]; exact hi
  exact ⟨fun h => by simpa using key _ _ _ h, key P y x⟩

theorem standsBefore_complement (P : List ℤ) (x y : ℤ) :
    StandsBefore (complementOf P) x y ↔ StandsBefore P ((P.length : ℤ) + 1 - x) ((P.length : ℤ) + 1 - y) := by
  unfold StandsBefore complementOf
  simp only [List.getElem?_map, Option.map_eq_some_iff]
  constructor
  · rintro ⟨i, j, hij, ⟨a, ha, rfl⟩, b, hb, rfl⟩
    exact ⟨i, j, hij, by rw [ha]; congr 1; omega, by rw [hb]; congr 1; omega⟩
  · rintro ⟨i, j, hij, ha, hb⟩
    exact ⟨i, j, hij, ⟨_, ha, by omega⟩, _, hb, by omega⟩

/-- two causets from permutations with corresponding events -/
theorem perm_transfer (it1 it2 : Iter) (fmt1 fmt2 : LabelFormat) (P Q : List ℤ) (h1 h2 : Heap) (v1 : h1.Valid) (v2 : h2.Valid)
    (hP : IsPermutation P) (hQ : IsPermutation Q) (σ : Fin P.length ≃ Fin Q.length) (S1 S2 : Finset EId) (h1' h2' : Heap)
    (e1 : fromPermutation it1 fmt1 P h1 = (.ok S1, h1')) (e2 : fromPermutation it2 fmt2 Q h2 = (.ok S2, h2')) :
    ∃ (ids : Fin P.length → EId) (f : EId → EId), Set.BijOn f S1 S2 ∧ Function.Injective ids ∧ (∀ a, a ∈ S1 ↔ ∃ u, ids u = a) ∧
      (∀ u w, h1'.Lt (ids u) (ids w) ↔ u < w ∧ StandsBefore P ((u : ℕ) + 1) ((w : ℕ) + 1)) ∧
      ∀ u w, h2'.Lt (f (ids u)) (f (ids w)) ↔ σ u < σ w ∧ StandsBefore Q ((σ u : ℕ) + 1) ((σ w : ℕ) + 1) := by
  obtain ⟨ids1, g1, k1, r1, -⟩ := C10_fromPermutation it1 fmt1 P h1 v1 hP
  obtain ⟨ids2, g2, k2, r2, -⟩ := C10_fromPermutation it2 fmt2 Q h2 v2 hQ
  rw [e1] at k1
  rw [e2] at k2
  simp only [Prod.mk.injEq, Except.ok.injEq] at k1 k2
  obtain ⟨rfl, rfl⟩ := k1
  obtain ⟨rfl, rfl⟩ := k2
  classical
  let f : EId → EId := fun a => if hh : ∃ u, ids1 u = a then ids2 (σ hh.choose) else 0
  have hf : ∀ u, f (ids1 u) = ids2 (σ u) := by
    intro u
    have hh : ∃ u', ids1 u' = ids1 u := ⟨u, rfl⟩
    simp only [f, dif_pos hh]
    rw [r1.injective hh.choose_spec]
  refine ⟨ids1, f, ⟨fun a ha => ?_, fun a ha b hb hab => ?_, fun b hb => ?_⟩, r1.injective, fun a => by simp, r1.rel, fun u w => ?_⟩
  · simp only [Finset.coe_image, Finset.coe_univ, Set.image_univ, Set.mem_range] at ha ⊢
    obtain ⟨u, rfl⟩ := ha
    exact ⟨σ u, (hf u).symm⟩
  · simp only [Finset.coe_image, Finset.coe_univ, Set.image_univ, Set.mem_range] at ha hb
    obtain ⟨u, rfl⟩ := ha
    obtain ⟨w, rfl⟩ := hb
    rw [hf, hf] at hab
    rw [σ.injective (r2.injective hab)]
  · simp only [Finset.coe_image, Finset.coe_univ, Set.image_univ, Set.mem_range] at hb ⊢
    obtain ⟨u, rfl⟩ := hb
    refine ⟨ids1 (σ.symm u), ⟨_, rfl⟩, ?_⟩
    rw [hf, Equiv.apply_symm_apply]
  · rw [hf, hf]; exact r2.rel _ _

/-- **C131, inverse.** The causets of a permutation and of its inverse are isomorphic. -/
theorem C131_inverse (it1 it2 : Iter) (fmt1 fmt2 : LabelFormat) (P Q : List ℤ) (h1 h2 : Heap) (v1 : h1.Valid) (v2 : h2.Valid)
    (hP : IsPermutation P) (hQ : InversePermutation P Q) (S1 S2 : Finset EId) (h1' h2' : Heap)
    (e1 : fromPermutation it1 fmt1 P h1 = (.ok S1, h1')) (e2 : fromPermutation it2 fmt2 Q h2 = (.ok S2, h2')) :
    ∃ f : EId → EId, Set.BijOn f S1 S2 ∧ ∀ a ∈ S1, ∀ b ∈ S1, (h2'.Lt (f a) (f b) ↔ h1'.Lt a b) := by
  have hQp := hQ.isPermutation hP
  have hn := hP.nodup
  have hnQ := hQp.nodup
  have hpos : ∀ u : ℕ, u < P.length → ∃ i : ℕ, i < P.length ∧ P[i]? = some ((u : ℤ) + 1) := by
    intro u hu
    obtain ⟨i, hi, he⟩ := List.mem_iff_getElem.1 (hP.mem u hu)
    exact ⟨i, hi, by rw [List.getElem?_eq_getElem hi, he]⟩
  choose! p hp1 hp2 using hpos
  have hinj : ∀ u w, u < P.length → w < P.length → p u = p w → u = w := by
    intro u w hu hw huw
    have k1 := hp2 u hu
    rw [huw, hp2 w hw] at k1
    simp only [Option.some.injEq] at k1
    omega
  let s : Fin P.length → Fin Q.length := fun u => ⟨p u, by rw [hQ.1]; exact hp1 u u.2⟩
  have hsb : Function.Bijective s := by
    rw [Fintype.bijective_iff_injective_and_card]
    refine ⟨fun u w huw => Fin.ext (hinj u w u.2 w.2 (by simpa [s] using huw)), by simp [hQ.1]⟩
  obtain ⟨ids, f, hf, -, hS, r1, r2⟩ := perm_transfer it1 it2 fmt1 fmt2 P Q h1 h2 v1 v2 hP hQp (Equiv.ofBijective s hsb) S1 S2 h1' h2' e1 e2
  refine ⟨f, hf, fun a ha b hb => ?_⟩
  obtain ⟨u, rfl⟩ := (hS a).1 ha
  obtain ⟨w, rfl⟩ := (hS b).1 hb
  rw [r1, r2]
  have hs : ∀ u : Fin P.length, ((Equiv.ofBijective s hsb u : Fin Q.length) : ℕ) = p u := fun u => rfl
  have hlt : (Equiv.ofBijective s hsb u < Equiv.ofBijective s hsb w) ↔ p u < p w := Iff.rfl
  rw [hlt, hs, hs]
  have hQu : ∀ u : Fin P.length, Q[(u : ℕ)]? = some ((p u : ℤ) + 1) := fun u => (hQ.2 _ _).1 (hp2 u u.2)
  have a1 : StandsBefore P ((u : ℕ) + 1) ((w : ℕ) + 1) ↔ p u < p w := by
    constructor
    · rintro ⟨i, j, hij, hi, hj⟩
      have hi' := (List.getElem?_eq_some_iff.1 hi).1
      have hj' := (List.getElem?_eq_some_iff.1 hj).1
      have q1 : i = p u := (List.getElem?_inj hi' hn).1 (hi.trans (hp2 u u.2).symm)
      have q2 : j = p w := (List.getElem?_inj hj' hn).1 (hj.trans (hp2 w w.2).symm)
      omega
    · exact fun hh => ⟨p u, p w, hh, hp2 u u.2, hp2 w w.2⟩
  have a2 : StandsBefore Q ((p u : ℕ) + 1) ((p w : ℕ) + 1) ↔ u < w := by
    constructor
    · rintro ⟨i, j, hij, hi, hj⟩
      have hi' := (List.getElem?_eq_some_iff.1 hi).1
      have hj' := (List.getElem?_eq_some_iff.1 hj).1
      have q1 : i = u := (List.getElem?_inj hi' hnQ).1 (hi.trans (hQu u).symm)
      have q2 : j = w := (List.getElem?_inj hj' hnQ).1 (hj.trans (hQu w).symm)
      exact Fin.lt_def.2 (by omega)
    · exact fun hh => ⟨u, w, hh, hQu u, hQu w⟩
  rw [a1, a2]
  exact and_comm

/-- **C131, reversed.** In the causet of the reversed permutation exactly those events are causally related that correspond to different, unrelated events. -/
theorem C131_reverse (it1 it2 : Iter) (fmt1 fmt2 : LabelFormat) (P : List ℤ) (h1 h2 : Heap) (v1 : h1.Valid) (v2 : h2.Valid)
    (hP : IsPermutation P) (S1 S2 : Finset EId) (h1' h2' : Heap)
    (e1 : fromPermutation it1 fmt1 P h1 = (.ok S1, h1')) (e2 : fromPermutation it2 fmt2 P.reverse h2 = (.ok S2, h2')) :
    ∃ f : EId → EId, Set.BijOn f S1 S2 ∧ ∀ a ∈ S1, ∀ b ∈ S1, (Related h2'.Lt (f a) (f b) ↔ a ≠ b ∧ ¬ Related h1'.Lt a b) := by
  obtain ⟨ids, f, hf, hid, hS, r1, r2⟩ := perm_transfer it1 it2 fmt1 fmt2 P P.reverse h1 h2 v1 v2 hP hP.reverse
    (finCongr (List.length_reverse).symm) S1 S2 h1' h2' e1 e2
  refine ⟨f, hf, fun a ha b hb => ?_⟩
  obtain ⟨u, rfl⟩ := (hS a).1 ha
  obtain ⟨w, rfl⟩ := (hS b).1 hb
  unfold Related
  rw [r1, r1, r2, r2, standsBefore_reverse, standsBefore_reverse, hid.ne_iff]
  simp only [finCongr_apply, Fin.lt_def, Fin.val_cast, ne_eq, Fin.ext_iff]
  have hn := hP.nodup
  have htot : ∀ u w : Fin P.length, u ≠ w → (StandsBefore P ((u : ℕ) + 1) ((w : ℕ) + 1) ↔ ¬ StandsBefore P ((w : ℕ) + 1) ((u : ℕ) + 1)) := by
    intro u w huw
    obtain ⟨i, hi, hiu⟩ := List.mem_iff_getElem.1 (hP.mem u u.2)
    obtain ⟨j, hj, hjw⟩ := List.mem_iff_getElem.1 (hP.mem w w.2)
    have gi : P[i]? = some ((u : ℕ) + 1 : ℤ) := by rw [List.getElem?_eq_getElem hi, hiu]
    have gj : P[j]? = some ((w : ℕ) + 1 : ℤ) := by rw [List.getElem?_eq_getElem hj, hjw]
    have hij : i ≠ j := by
      rintro rfl
      rw [gi] at gj
      simp only [Option.some.injEq] at gj
      exact huw (Fin.ext (by omega))
    constructor
    · rintro ⟨i1, j1, hlt, k1, k2⟩ ⟨i2, j2, hlt2, k3, k4⟩
      have q1 := (List.getElem?_inj (List.getElem?_eq_some_iff.1 k1).1 hn).1 (k1.trans k4.symm)
      have q2 := (List.getElem?_inj (List.getElem?_eq_some_iff.1 k2).1 hn).1 (k2.trans k3.symm)
      omega
    · intro hno
      rcases lt_or_gt_of_ne hij with hlt | hlt
      · exact ⟨i, j, hlt, gi, gj⟩
      · exact absurd ⟨j, i, hlt, gj, gi⟩ hno
  by_cases huw : u = w
  · subst huw; simp
  · have t1 := htot u w huw
    have hne : (u : ℕ) ≠ w := fun hh => huw (Fin.ext hh)
    rcases lt_or_gt_of_ne hne with hlt | hlt
    · have h1 : ¬ (w : ℕ) < u := by omega
      simp only [hlt, true_and, h1, false_and, or_false, hne, not_false_eq_true]
      rw [t1, not_not]
    · have h1 : ¬ (u : ℕ) < w := by omega
      simp only [hlt, true_and, h1, false_and, false_or, hne, not_false_eq_true]
      exact t1

/-- **C131, dual.** The causet of the reversed complement of a permutation is the causet of the permutation with past and future exchanged. -/
theorem C131_dual (it1 it2 : Iter) (fmt1 fmt2 : LabelFormat) (P : List ℤ) (h1 h2 : Heap) (v1 : h1.Valid) (v2 : h2.Valid)
    (hP : IsPermutation P) (S1 S2 : Finset EId) (h1' h2' : Heap)
    (e1 : fromPermutation it1 fmt1 P h1 = (.ok S1, h1')) (e2 : fromPermutation it2 fmt2 (complementOf P).reverse h2 = (.ok S2, h2')) :
    ∃ f : EId → EId, Set.BijOn f S1 S2 ∧ ∀ a ∈ S1, ∀ b ∈ S1, (h2'.Lt (f a) (f b) ↔ h1'.Lt b a) := by
  have hlen : P.length = (complementOf P).reverse.length := by simp [complementOf]
  obtain ⟨ids, f, hf, hid, hS, r1, r2⟩ := perm_transfer it1 it2 fmt1 fmt2 P (complementOf P).reverse h1 h2 v1 v2 hP hP.complement.reverse
    ((Fin.revPerm).trans (finCongr hlen)) S1 S2 h1' h2' e1 e2
  refine ⟨f, hf, fun a ha b hb => ?_⟩
  obtain ⟨u, rfl⟩ := (hS a).1 ha
  obtain ⟨w, rfl⟩ := (hS b).1 hb
  rw [r1, r2, standsBefore_reverse, standsBefore_complement]
  simp only [Equiv.trans_apply, Fin.revPerm_apply, finCongr_apply, Fin.lt_def, Fin.val_cast, Fin.val_rev]
  have g1 : (P.length : ℤ) + 1 - (((P.length - ((w : ℕ) + 1) : ℕ) : ℤ) + 1) = (w : ℕ) + 1 := by have := w.2; omega
  have g2 : (P.length : ℤ) + 1 - (((P.length - ((u : ℕ) + 1) : ℕ) : ℤ) + 1) = (u : ℕ) + 1 := by have := u.2; omega
  rw [g1, g2]
  refine and_congr_left fun _ => ?_
  have := u.2
  have := w.2
  omega

/-- **C131, complement.** In the causet of the complement of a permutation exactly those events are causally related that correspond to different,
unrelated events. -/
theorem C131_complement (it1 it2 : Iter) (fmt1 fmt2 : LabelFormat) (P : List ℤ) (h1 h2 : Heap) (v1 : h1.Valid) (v2 : h2.Valid)
    (hP : IsPermutation P) (S1 S2 : Finset EId) (h1' h2' : Heap)
    (e1 : fromPermutation it1 fmt1 P h1 = (.ok S1, h1')) (e2 : fromPermutation it2 fmt2 (complementOf P) h2 = (.ok S2, h2')) :
    ∃ f : EId → EId, Set.BijOn f S1 S2 ∧ ∀ a ∈ S1, ∀ b ∈ S1, (Related h2'.Lt (f a) (f b) ↔ a ≠ b ∧ ¬ Related h1'.Lt a b) := by
  obtain ⟨ids, h3', e3, -⟩ := C10_fromPermutation it1 fmt1 (complementOf P).reverse h1 v1 hP.complement.reverse
  obtain ⟨f, hf, hfr⟩ := C131_dual it1 it1 fmt1 fmt1 P h1 h1 v1 v1 hP _ _ _ _ e1 e3
  obtain ⟨g, hg, hgr⟩ := C131_reverse it1 it2 fmt1 fmt2 _ h1 h2 v1 v2 hP.complement.reverse _ _ _ _ e3 (by rw [List.reverse_reverse]; exact e2)
  refine ⟨g ∘ f, hg.comp hf, fun a ha b hb => ?_⟩
  have ha' := hf.mapsTo ha
  have hb' := hf.mapsTo hb
  rw [Function.comp_apply, Function.comp_apply, hgr _ ha' _ hb', hf.injOn.ne_iff ha hb]
  unfold Related
  rw [hfr a ha b hb, hfr b hb a ha, or_comm]

/-- The hypotheses are met: a permutation of four numbers, its inverse, and the reversed complement. -/
example : IsPermutation [2, 4, 1, 3] ∧ InversePermutation [2, 4, 1, 3] [3, 1, 4, 2] ∧ (complementOf [2, 4, 1, 3]).reverse = [2, 4, 1, 3] ∧
    (complementOf [1, 3, 2, 4, 5]).reverse = [1, 2, 4, 3, 5] := by
  refine ⟨by decide, ⟨rfl, fun i k => ?_⟩, by decide, by decide⟩
  match i, k with
  | 0, 0 | 0, 1 | 0, 2 | 0, 3 | 1, 0 | 1, 1 | 1, 2 | 1, 3 | 2, 0 | 2, 1 | 2, 2 | 2, 3 | 3, 0 | 3, 1 | 3, 2 | 3, 3 => simp
  | i + 4, 0 | i + 4, 1 | i + 4, 2 | i + 4, 3 => simp <;> omega
  | 0, k + 4 | 1, k + 4 | 2, k + 4 | 3, k + 4 => simp <;> omega
  | i + 4, k + 4 => simp

end Causets
