import Verif.Props.Built
import Mathlib.Data.Fintype.Basic
import Mathlib.Data.Fintype.Card
import Mathlib.Data.Fintype.Prod
import Mathlib.Tactic.Ring

/-! # C10–C12: FromPermutation, NewChain, NewAntichain, NewFence, NewCrown -/

namespace Causets

open Heap

/-! ## C10 -/

theorem pyIndex_ok {P : List ℤ} {u : ℤ} (hu : u ∈ P) : pyIndex P u = .ok (P.idxOf u) := by
  unfold pyIndex
  cases hx : P.idxOf? u with
  | none => rw [List.idxOf?_eq_none_iff] at hx; exact absurd hu hx
  | some k => rw [List.idxOf_eq_getD_idxOf?, hx]; rfl

theorem pyIndex_err {P : List ℤ} {u : ℤ} (hu : u ∉ P) : pyIndex P u = .error .valueError := by
  unfold pyIndex
  rw [List.idxOf?_eq_none_iff.2 hu]

/-- the order of the events in terms of positions -/
def permRel (P : List ℤ) (u w : ℕ) : Prop :=
  u < w ∧ P.idxOf ((u : ℤ) + 1) < P.idxOf ((w : ℤ) + 1)

/-- the numbers of the events in the past of event number `i` -/
def permPast (P : List ℤ) (i : ℕ) : List ℕ :=
  permPastIdx P i (P.idxOf ((i : ℤ) + 1) + 1)

theorem mem_permPast {P : List ℤ} {i j : ℕ} (hj : (j : ℤ) + 1 ∈ P) :
    j ∈ permPast P i ↔ permRel P j i := by
  simp only [permPast, permPastIdx, List.mem_filter, List.mem_range, pyIndex_ok hj, decide_eq_true_eq, permRel]
  omega

theorem fromPermLoop_spec (it : Iter) (fmt : LabelFormat) (P : List ℤ) (h0 : Heap) (v : h0.Valid) :
    ∀ (n i : ℕ) (evs : List EId) (h : Heap),
      (∀ k < i + n, (k : ℤ) + 1 ∈ P) →
      Built h0 (permRel P) (fun u => fmt.label (u + 1)) i h → evs.length = i + n →
      (∀ j < i, evs.getD j 0 = h0.next + j) →
      ∃ h', fromPermLoop it fmt P n i evs h = (.ok ((List.range (i + n)).map (h0.next + ·)), h') ∧
        Built h0 (permRel P) (fun u => fmt.label (u + 1)) (i + n) h' := by
  intro n
  induction n with
  | zero =>
    intro i evs h _ b hl he
    refine ⟨h, ?_, b⟩
    simp only [fromPermLoop, Nat.add_zero, Prod.mk.injEq, Except.ok.injEq, and_true]
    refine List.ext_getElem (by simp [hl]) fun k h1 h2 => ?_
    have := he k (by omega)
    simpa [List.getD_eq_getElem?_getD, h1] using this
  | succ n ih =>
    intro i evs h hP b hl he
    have hi : (i : ℤ) + 1 ∈ P := hP i (by omega)
    unfold fromPermLoop
    rw [pyIndex_ok hi]
    dsimp only
    have hpast : (permPastIdx P i (P.idxOf ((i : ℤ) + 1) + 1)).map (fun j => evs.getD j 0) =
        (permPast P i).map (h0.next + ·) := by
      refine List.map_congr_left fun j hj => he j ?_
      exact List.mem_range.1 (List.mem_filter.1 hj).1
    rw [hpast]
    have hPi : ∀ j < i, (j : ℤ) + 1 ∈ P := fun j hj => hP j (by omega)
    obtain ⟨h1, h2⟩ := b.step it v (permPast P i)
      (fun p hp => List.mem_range.1 (List.mem_filter.1 hp).1)
      (fun k hk => by
        constructor
        · exact fun hr => ⟨k, (mem_permPast (hPi k hk)).2 hr, Or.inl rfl⟩
        · rintro ⟨p, hp, hkp⟩
          have hpi : p < i := List.mem_range.1 (List.mem_filter.1 hp).1
          have h3 := (mem_permPast (hPi p hpi)).1 hp
          rcases hkp with rfl | hkp
          · exact h3
          · exact ⟨hk, hkp.2.trans h3.2⟩)
      (fun j hj hr => by have := hr.1; omega)
    rw [h1]
    obtain ⟨h', h3, h4⟩ := ih (i + 1) (evs.set i (h0.next + i)) _
      (fun k hk => hP k (by omega)) h2 (by simp [hl]; omega)
      (fun j hj => by
        by_cases hji : j = i
        · subst hji
          simp [List.getD_eq_getElem?_getD, hl]
        · have := he j (by omega)
          rw [List.getD_eq_getElem?_getD] at this ⊢
          rw [List.getElem?_set_ne (by omega)]; exact this)
    refine ⟨h', ?_, by rw [show i + (n + 1) = i + 1 + n by omega]; exact h4⟩
    rw [show i + (n + 1) = i + 1 + n by omega]
    exact h3

theorem fromPermLoop_err (it : Iter) (fmt : LabelFormat) (P : List ℤ) :
    ∀ (n i : ℕ) (evs : List EId) (h : Heap), (∃ k, i ≤ k ∧ k < i + n ∧ (k : ℤ) + 1 ∉ P) →
      (fromPermLoop it fmt P n i evs h).1 = .error .valueError := by
  intro n
  induction n with
  | zero => rintro i evs h ⟨k, h1, h2, _⟩; omega
  | succ n ih =>
    rintro i evs h ⟨k, h1, h2, h3⟩
    unfold fromPermLoop
    by_cases hi : (i : ℤ) + 1 ∈ P
    · rw [pyIndex_ok hi]
      dsimp only
      have hik : i ≠ k := by rintro rfl; exact h3 hi
      exact ih _ _ _ ⟨k, by omega, by omega, h3⟩
    · rw [pyIndex_err hi]

/-- creating one event without relations first does not matter for `Realises` -/
theorem Heap.Realises.of_placeholder {ι : Type} {h h' : Heap} (v : h.Valid) (it : Iter) {ids : ι → EId}
    {R : ι → ι → Prop} (r : (h.newEvent it none [] []).2.Realises h' ids R) : h.Realises h' ids R := by
  have b := (Built.zero (R := fun _ _ => False) (lab := fun _ => none) v).step it v [] (by simp)
    (by simp) (by simp)
  simp only [List.map_nil] at b
  have hlt : ∀ a b, (h.newEvent it none [] []).2.Lt a b ↔ h.Lt a b := fun x y => by
    rw [b.2.lt]; simp
  have hn := b.2.next
  have hex : ∀ a, h.Exists a → (h.newEvent it none [] []).2.Exists a := fun a ha => by
    have : a < h.next := ha
    show a < (h.newEvent it none [] []).2.next
    omega
  exact ⟨r.valid, r.injective, fun i hi => r.fresh i (hex _ hi), r.alive, r.rel,
    fun x y hxy => by rw [← hlt]; exact r.only x y hxy,
    fun x y hx hy => by rw [← hlt]; exact r.old x y (hex _ hx) (hex _ hy),
    fun x hx => r.old_alive x (hex x hx),
    fun x hx => (r.old_label x (hex x hx)).trans (b.2.old_label x hx)⟩

/-- `P` is a permutation of the numbers 1, …, n. -/
def IsPermutation (P : List ℤ) : Prop :=
  P.Perm ((List.range P.length).map (fun (i : ℕ) => (i : ℤ) + 1))

/-- In `P`, the number `u` stands before the number `w`. -/
def StandsBefore (P : List ℤ) (u w : ℤ) : Prop :=
  ∃ i j : ℕ, i < j ∧ P[i]? = some u ∧ P[j]? = some w

instance (P : List ℤ) : Decidable (IsPermutation P) := inferInstanceAs (Decidable (List.Perm _ _))

theorem IsPermutation.mem {P : List ℤ} (hP : IsPermutation P) (k : ℕ) (hk : k < P.length) :
    (k : ℤ) + 1 ∈ P :=
  hP.mem_iff.2 (List.mem_map.2 ⟨k, List.mem_range.2 hk, rfl⟩)

theorem IsPermutation.nodup {P : List ℤ} (hP : IsPermutation P) : P.Nodup :=
  hP.nodup_iff.2 (List.nodup_range.map fun a b hab => by
    have : (a : ℤ) + 1 = b + 1 := hab
    omega)

theorem standsBefore_iff {P : List ℤ} (hn : P.Nodup) {u w : ℤ} (hu : u ∈ P) (hw : w ∈ P) :
    StandsBefore P u w ↔ P.idxOf u < P.idxOf w := by
  constructor
  · rintro ⟨i, j, hij, h1, h2⟩
    obtain ⟨h3, rfl⟩ := List.getElem?_eq_some_iff.1 h1
    obtain ⟨h4, rfl⟩ := List.getElem?_eq_some_iff.1 h2
    rwa [hn.idxOf_getElem, hn.idxOf_getElem]
  · intro hlt
    exact ⟨_, _, hlt, List.getElem?_idxOf hu, List.getElem?_idxOf hw⟩

/-- **C10.** For every permutation `P` of 1..n, `FromPermutation(P)` returns a causet of exactly n new events; number
`u` is labelled by the label format applied to `u` (by default the integer `u`), and event number `u` precedes event
number `w` exactly if `u < w` and `u` stands before `w` in `P`. (Events are indexed from 0 here: index
`u` stands for number `u + 1`.) -/
theorem C10_fromPermutation (it : Iter) (fmt : LabelFormat) (P : List ℤ) (h : Heap) (v : h.Valid)
    (hP : IsPermutation P) :
    ∃ (ids : Fin P.length → EId) (h' : Heap),
      fromPermutation it fmt P h = (.ok (Finset.univ.image ids), h') ∧
      h.Realises h' ids (fun u w => u < w ∧ StandsBefore P ((u : ℕ) + 1) ((w : ℕ) + 1)) ∧
      ∀ u, h'.label (ids u) = fmt.label ((u : ℕ) + 1) := by
  have b0 := (Built.zero (R := fun _ _ => False) (lab := fun _ => none) v).step it v [] (by simp)
    (by simp) (by simp)
  simp only [List.map_nil] at b0
  have v0 := b0.2.valid
  obtain ⟨h', h1, h2⟩ := fromPermLoop_spec it fmt P _ v0 P.length 0
    (List.replicate P.length (h.newEvent it none [] []).1) _
    (fun k hk => hP.mem k (by omega)) (Built.zero v0) (by simp) (by simp)
  rw [Nat.zero_add] at h1 h2
  have r := h2.realises v0 (ι := Fin P.length) (fun i => (i : ℕ)) Fin.val_injective (fun i => i.2)
    (fun k hk => ⟨⟨k, hk⟩, rfl⟩) (fun u w => u < w ∧ StandsBefore P ((u : ℕ) + 1) ((w : ℕ) + 1))
    (fun i j => by
      rw [standsBefore_iff hP.nodup (hP.mem i i.2) (hP.mem j j.2)]
      rfl)
  have hset : ((List.range P.length).map ((h.newEvent it none [] []).2.next + ·)).toFinset =
      Finset.univ.image (fun i : Fin P.length => (h.newEvent it none [] []).2.next + (i : ℕ)) := by
    ext x
    simp only [List.mem_toFinset, List.mem_map, List.mem_range, Finset.mem_image, Finset.mem_univ,
      true_and]
    exact ⟨fun ⟨k, hk, hx⟩ => ⟨⟨k, hk⟩, hx⟩, fun ⟨k, hx⟩ => ⟨k, k.2, hx⟩⟩
  refine ⟨_, h', ?_, r.of_placeholder v it, fun u => h2.label u u.2⟩
  unfold fromPermutation
  dsimp only
  rw [h1]
  dsimp only
  rw [hset, r.causetInit v0 it]

theorem isPermutation_of_mem {P : List ℤ} (hP : ∀ k < P.length, (k : ℤ) + 1 ∈ P) :
    IsPermutation P := by
  have hn : ((List.range P.length).map (fun (i : ℕ) => (i : ℤ) + 1)).Nodup :=
    List.nodup_range.map fun a b hab => by
      have : (a : ℤ) + 1 = b + 1 := hab
      omega
  have hsub : (List.range P.length).map (fun (i : ℕ) => (i : ℤ) + 1) ⊆ P := by
    intro x hx
    obtain ⟨k, hk, rfl⟩ := List.mem_map.1 hx
    exact hP k (List.mem_range.1 hk)
  exact ((List.subperm_of_subset hn hsub).perm_of_length_le (by simp)).symm

/-- **C10, labels.** By default the event for the number `u` (1, 2, …) is labelled with this integer, with an empty format events have no label, with a format string the label is the formatted number. -/
theorem C10_labels (it : Iter) (fmt : LabelFormat) (P : List ℤ) (h : Heap) (v : h.Valid) (hP : IsPermutation P) :
    ∃ (ids : Fin P.length → EId) (h' : Heap), fromPermutation it fmt P h = (.ok (Finset.univ.image ids), h') ∧
      h.Realises h' ids (fun u w => u < w ∧ StandsBefore P ((u : ℕ) + 1) ((w : ℕ) + 1)) ∧
      (fmt = .default → ∀ u, h'.label (ids u) = some (.int ((u : ℕ) + 1 : ℕ))) ∧
      (fmt = .empty → ∀ u, h'.label (ids u) = none) ∧
      (∀ f, fmt = .fmt f → ∀ u, h'.label (ids u) = some (.str (f ((u : ℕ) + 1)))) := by
  obtain ⟨ids, h', h1, h2, h3⟩ := C10_fromPermutation it fmt P h v hP
  refine ⟨ids, h', h1, h2, ?_, ?_, ?_⟩
  · rintro rfl u; rw [h3]; rfl
  · rintro rfl u; rw [h3]; rfl
  · rintro f rfl u; rw [h3]; rfl

/-- **C10, errors.** If `P` is not a permutation of 1..n (n the length of `P`), a ValueError is raised. -/
theorem C10_not_permutation (it : Iter) (fmt : LabelFormat) (P : List ℤ) (h : Heap)
    (hP : ¬ IsPermutation P) : (fromPermutation it fmt P h).1 = .error .valueError := by
  have : ∃ k, 0 ≤ k ∧ k < 0 + P.length ∧ (k : ℤ) + 1 ∉ P := by
    by_contra hc
    push Not at hc
    exact hP (isPermutation_of_mem fun k hk => hc k (Nat.zero_le _) (by omega))
  have h1 := fromPermLoop_err it fmt P P.length 0
    (List.replicate P.length (h.newEvent it none [] []).1) (h.newEvent it none [] []).2 this
  unfold fromPermutation
  dsimp only
  generalize fromPermLoop it fmt P P.length 0
    (List.replicate P.length (h.newEvent it none [] []).1) (h.newEvent it none [] []).2 = r at h1
  obtain ⟨r1, r2⟩ := r
  dsimp only at h1
  subst h1
  rfl

/-- a permutation, and lists that are none -/
example : exDiamond.Valid ∧ IsPermutation [2, 4, 1, 3] ∧ ¬ IsPermutation [2, 4, 1, 2] ∧
    ¬ IsPermutation [0, 1] ∧ StandsBefore [2, 4, 1, 3] 2 3 ∧ ¬ StandsBefore [2, 4, 1, 3] 4 2 := by
  refine ⟨exDiamond_valid, by decide, by decide, by decide, ⟨0, 3, by decide⟩, ?_⟩
  rw [standsBefore_iff (by decide) (by decide) (by decide)]; decide

/-! ## C11 -/

theorem isPermutation_asc (n : ℕ) :
    IsPermutation ((List.range n).map (fun (i : ℕ) => (i : ℤ) + 1)) := by
  unfold IsPermutation; simp

theorem Realises.cast {ι κ : Type} {h h' : Heap} {ids : ι → EId} {R : ι → ι → Prop}
    (r : h.Realises h' ids R) (f : κ ≃ ι) (S : κ → κ → Prop) (hS : ∀ i j, R (f i) (f j) ↔ S i j) :
    h.Realises h' (fun i => ids (f i)) S where
  valid := r.valid
  injective i j hij := f.injective (r.injective hij)
  fresh i := r.fresh _
  alive i := r.alive _
  rel i j := (r.rel _ _).trans (hS i j)
  only a b hab := by
    rcases r.only a b hab with h1 | ⟨i, j, rfl, rfl⟩
    · exact Or.inl h1
    · exact Or.inr ⟨f.symm i, f.symm j, by simp, by simp⟩
  old := r.old
  old_alive := r.old_alive
  old_label := r.old_label

theorem image_equiv {ι κ : Type} [Fintype ι] [Fintype κ] (f : κ ≃ ι) (g : ι → EId) :
    Finset.univ.image (fun i => g (f i)) = Finset.univ.image g := by
  ext x
  simp only [Finset.mem_image, Finset.mem_univ, true_and]
  exact ⟨fun ⟨i, hi⟩ => ⟨f i, hi⟩, fun ⟨i, hi⟩ => ⟨f.symm i, by simpa using hi⟩⟩

/-- **C11, chains.** `NewChain(n)` consists of max(n, 0) new events; event number `u` precedes event number `w`
exactly if `u < w`. -/
theorem C11_newChain (it : Iter) (fmt : LabelFormat) (n : ℤ) (h : Heap) (v : h.Valid) :
    ∃ (ids : Fin n.toNat → EId) (h' : Heap),
      newChain it fmt n h = (.ok (Finset.univ.image ids), h') ∧
      h.Realises h' ids (fun u w => u < w) ∧
      (∀ u, h'.label (ids u) = fmt.label ((u : ℕ) + 1)) ∧
      (Finset.univ.image ids).card = n.toNat ∧ IsChainSet h'.Lt (Finset.univ.image ids) := by
  have hp := isPermutation_asc n.toNat
  obtain ⟨ids, h', h1, h2, h3⟩ := C10_fromPermutation it fmt _ h v hp
  have hl : ((List.range n.toNat).map (fun (i : ℕ) => (i : ℤ) + 1)).length = n.toNat := by simp
  have h4 := Realises.cast h2 (finCongr hl.symm) (fun u w => u < w) (fun i j => by
    simp only [finCongr_apply, Fin.val_cast]
    constructor
    · intro hh; exact Fin.lt_def.2 (Fin.lt_def.1 hh.1)
    · intro hh
      refine ⟨Fin.lt_def.2 (Fin.lt_def.1 hh), i, j, hh, ?_, ?_⟩ <;>
        simp [List.getElem?_range i.2, List.getElem?_range j.2])
  refine ⟨_, h', ?_, h4, fun u => by rw [h3]; simp, ?_, ?_⟩
  · rw [image_equiv (finCongr hl.symm) ids]; exact h1
  · rw [Finset.card_image_of_injective _ h4.injective]; simp
  · intro a ha b hb hab
    obtain ⟨i, -, rfl⟩ := Finset.mem_image.1 ha
    obtain ⟨j, -, rfl⟩ := Finset.mem_image.1 hb
    rcases lt_trichotomy i j with hij | hij | hij
    · exact Or.inl ((h4.rel i j).2 hij)
    · exact absurd (by rw [hij]) hab
    · exact Or.inr ((h4.rel j i).2 hij)

theorem isPermutation_desc (n : ℤ) :
    IsPermutation ((List.range n.toNat).map (fun (i : ℕ) => n - (i : ℤ))) := by
  apply isPermutation_of_mem
  intro k hk
  simp only [List.length_map, List.length_range] at hk
  refine List.mem_map.2 ⟨n.toNat - 1 - k, List.mem_range.2 (by omega), by omega⟩

/-- **C11, antichains.** `NewAntichain(n)` consists of max(n, 0) new pairwise unrelated events. -/
theorem C11_newAntichain (it : Iter) (fmt : LabelFormat) (n : ℤ) (h : Heap) (v : h.Valid) :
    ∃ (ids : Fin n.toNat → EId) (h' : Heap),
      newAntichain it fmt n h = (.ok (Finset.univ.image ids), h') ∧
      h.Realises h' ids (fun _ _ => False) ∧
      (∀ u, h'.label (ids u) = fmt.label ((u : ℕ) + 1)) ∧
      (Finset.univ.image ids).card = n.toNat ∧ IsAntichainSet h'.Lt (Finset.univ.image ids) := by
  have hp := isPermutation_desc n
  obtain ⟨ids, h', h1, h2, h3⟩ := C10_fromPermutation it fmt _ h v hp
  have hl : ((List.range n.toNat).map (fun (i : ℕ) => n - (i : ℤ))).length = n.toNat := by simp
  have h4 := Realises.cast h2 (finCongr hl.symm) (fun _ _ => False) (fun i j => by
    simp only [finCongr_apply, Fin.val_cast, iff_false, not_and]
    rintro hij ⟨a, b, hab, h5, h6⟩
    have hij' : (i : ℕ) < j := Fin.lt_def.1 hij
    simp only [List.getElem?_map, Option.map_eq_some_iff] at h5 h6
    obtain ⟨a', h5, h7⟩ := h5
    obtain ⟨b', h6, h8⟩ := h6
    rw [List.getElem?_eq_some_iff] at h5 h6
    obtain ⟨_, h5⟩ := h5
    obtain ⟨_, h6⟩ := h6
    simp only [List.getElem_range] at h5 h6
    omega)
  refine ⟨_, h', ?_, h4, fun u => by rw [h3]; simp, ?_, ?_⟩
  · rw [image_equiv (finCongr hl.symm) ids]; exact h1
  · rw [Finset.card_image_of_injective _ h4.injective]; simp
  · intro a ha b hb hab
    obtain ⟨i, -, rfl⟩ := Finset.mem_image.1 ha
    obtain ⟨j, -, rfl⟩ := Finset.mem_image.1 hb
    exact (h4.rel i j).1 hab

/-- both theorems apply to the empty state, to states with events, and to every integer -/
example : Heap.empty.Valid ∧ exDiamond.Valid ∧ (-3 : ℤ).toNat = 0 ∧ (4 : ℤ).toNat = 4 :=
  ⟨empty_valid, exDiamond_valid, by decide, by decide⟩

/-! ## C12 -/

theorem Built.newEvents (it : Iter) {h0 : Heap} (v : h0.Valid) {R : ℕ → ℕ → Prop}
    {lab : ℕ → Option Label} (Pidx : ℕ → List ℕ) : ∀ (L m : ℕ) (h : Heap), Built h0 R lab m h →
    (∀ t, m ≤ t → t < m + L → (∀ p ∈ Pidx t, p < t) ∧
      (∀ i < t, R i t ↔ ∃ p ∈ Pidx t, i = p ∨ R i p) ∧ (∀ j ≤ t, ¬ R t j)) →
    ∃ h', Causets.newEvents it
        ((List.range' m L).map (fun t => (lab t, (Pidx t).map (h0.next + ·)))) h =
        ((List.range' m L).map (h0.next + ·), h') ∧ Built h0 R lab (m + L) h' := by
  intro L
  induction L with
  | zero => intro m h b _; exact ⟨h, rfl, b⟩
  | succ L ih =>
    intro m h b hst
    obtain ⟨s1, s2, s3⟩ := hst m le_rfl (by omega)
    obtain ⟨e1, b1⟩ := b.step it v (Pidx m) s1 s2 s3
    obtain ⟨h', e2, b2⟩ := ih (m + 1) _ b1 (fun t h1 h2 => hst t (by omega) (by omega))
    refine ⟨h', ?_, by rw [show m + (L + 1) = m + 1 + L by omega]; exact b2⟩
    rw [List.range'_succ, List.map_cons, List.map_cons, Causets.newEvents, e2, e1]

/-- The order of the fence: (height, position) `(k, l)` precedes `(k', l')` exactly if `k < k'` and `l'` is reached
from `l` by at most `k' - k` steps to the right (cyclically for closed fences), i.e. `l` is one of the `k' - k + 1`
positions ending at `l'`. -/
def FenceOrder (length : ℕ) (closed : Bool) (k l k' l' : ℕ) : Prop :=
  k < k' ∧ ∃ d ≤ k' - k, if closed then (l + d) % length = l' else l + d = l'

/-- the same on the running numbers of the events -/
def fenceRel (len : ℕ) (closed : Bool) (a b : ℕ) : Prop :=
  FenceOrder len closed (a / len) (a % len) (b / len) (b % len)

theorem fence_div {len k l : ℕ} (hl : l < len) : (k * len + l) / len = k := by
  rw [Nat.add_comm, Nat.add_mul_div_right _ _ (by omega), Nat.div_eq_of_lt hl, Nat.zero_add]

theorem fence_mod {len k l : ℕ} (hl : l < len) : (k * len + l) % len = l := by
  rw [Nat.add_comm, Nat.add_mul_mod_self_right, Nat.mod_eq_of_lt hl]

theorem fenceRel_iff {len k l k' l' : ℕ} (closed : Bool) (hl : l < len) (hl' : l' < len) :
    fenceRel len closed (k * len + l) (k' * len + l') ↔ FenceOrder len closed k l k' l' := by
  rw [fenceRel, fence_div hl, fence_div hl', fence_mod hl, fence_mod hl']

/-- numbers of the events in the past of event number `t` (not in the lowest layer) -/
def fencePast (len : ℕ) (closed : Bool) (t : ℕ) : List ℕ :=
  if t < len then []
  else if t % len = 0 then (if closed then [t - 1, t - len] else [t - len])
  else [t - len - 1, t - len]

theorem mod_succ_eq {len x l : ℕ} (hlen : 2 ≤ len) (hl : l < len) :
    (x + 1) % len = l ↔ x % len = if l = 0 then len - 1 else l - 1 := by
  have hx : x % len < len := Nat.mod_lt _ (by omega)
  rw [Nat.add_mod, Nat.mod_eq_of_lt (show 1 < len by omega)]
  by_cases hx1 : x % len + 1 = len
  · rw [hx1, Nat.mod_self]
    split_ifs <;> omega
  · rw [Nat.mod_eq_of_lt (by omega)]
    split_ifs <;> omega

/-- one step of the fence order -/
theorem fenceOrder_step {len : ℕ} (hlen : 2 ≤ len) (closed : Bool) {ki li k l : ℕ} (hli : li < len)
    (hl : l < len) :
    FenceOrder len closed ki li (k + 1) l ↔
      ((ki = k ∧ li = l) ∨ FenceOrder len closed ki li k l) ∨
      ((l ≠ 0 ∨ closed = true) ∧ ((ki = k ∧ li = if l = 0 then len - 1 else l - 1) ∨
        FenceOrder len closed ki li k (if l = 0 then len - 1 else l - 1))) := by
  cases closed
  · simp only [FenceOrder, Bool.false_eq_true, if_false, or_false]
    constructor
    · rintro ⟨h1, d, hd, h2⟩
      by_cases hk : ki = k
      · subst hk
        have hd1 : d ≤ 1 := by omega
        rcases Nat.le_one_iff_eq_zero_or_eq_one.1 hd1 with rfl | rfl
        · exact Or.inl (Or.inl ⟨rfl, by omega⟩)
        · refine Or.inr ⟨by omega, Or.inl ⟨rfl, ?_⟩⟩
          rw [if_neg (by omega)]; omega
      · by_cases hd2 : d ≤ k - ki
        · exact Or.inl (Or.inr ⟨by omega, d, hd2, h2⟩)
        · refine Or.inr ⟨by omega, Or.inr ⟨by omega, d - 1, by omega, ?_⟩⟩
          rw [if_neg (by omega)]; omega
    · rintro ((⟨rfl, rfl⟩ | ⟨h1, d, hd, h2⟩) | ⟨h0, ⟨rfl, h1⟩ | ⟨h1, d, hd, h2⟩⟩)
      · exact ⟨by omega, 0, by omega, rfl⟩
      · exact ⟨by omega, d, by omega, h2⟩
      · rw [if_neg h0] at h1
        exact ⟨by omega, 1, by omega, by omega⟩
      · rw [if_neg h0] at h2
        exact ⟨by omega, d + 1, by omega, by omega⟩
  · simp only [FenceOrder, if_true, or_true, true_and]
    constructor
    · rintro ⟨h1, d, hd, h2⟩
      by_cases hk : ki = k
      · subst hk
        have hd1 : d ≤ 1 := by omega
        rcases Nat.le_one_iff_eq_zero_or_eq_one.1 hd1 with rfl | rfl
        · rw [Nat.add_zero, Nat.mod_eq_of_lt hli] at h2
          exact Or.inl (Or.inl ⟨rfl, h2⟩)
        · rw [mod_succ_eq hlen hl, Nat.mod_eq_of_lt hli] at h2
          exact Or.inr (Or.inl ⟨rfl, h2⟩)
      · by_cases hd2 : d ≤ k - ki
        · exact Or.inl (Or.inr ⟨by omega, d, hd2, h2⟩)
        · refine Or.inr (Or.inr ⟨by omega, d - 1, by omega, ?_⟩)
          rw [← mod_succ_eq hlen hl, show li + (d - 1) + 1 = li + d by omega]; exact h2
    · rintro ((⟨rfl, rfl⟩ | ⟨h1, d, hd, h2⟩) | (⟨rfl, h1⟩ | ⟨h1, d, hd, h2⟩))
      · exact ⟨by omega, 0, by omega, Nat.mod_eq_of_lt hli⟩
      · exact ⟨by omega, d, by omega, h2⟩
      · refine ⟨by omega, 1, by omega, ?_⟩
        rw [mod_succ_eq hlen hl, Nat.mod_eq_of_lt hli]; exact h1
      · refine ⟨by omega, d + 1, by omega, ?_⟩
        rw [← Nat.add_assoc, mod_succ_eq hlen hl]; exact h2

theorem eq_mul_add (len a : ℕ) : a = (a / len) * len + a % len := by
  rw [Nat.mul_comm]; exact (Nat.div_add_mod a len).symm

/-- the conditions for creating event number `t` of a fence -/
theorem fence_conditions {len : ℕ} (hlen : 2 ≤ len) (closed : Bool) (t : ℕ) :
    (∀ p ∈ fencePast len closed t, p < t) ∧
    (∀ i < t, fenceRel len closed i t ↔
      ∃ p ∈ fencePast len closed t, i = p ∨ fenceRel len closed i p) ∧
    (∀ j ≤ t, ¬ fenceRel len closed t j) := by
  refine ⟨fun p hp => ?_, fun i hi => ?_, fun j hj hr => ?_⟩
  · unfold fencePast at hp
    split_ifs at hp <;> simp at hp <;> omega
  · by_cases ht : t < len
    · have h1 : t / len = 0 := Nat.div_eq_of_lt ht
      simp [fencePast, ht, fenceRel, FenceOrder, h1]
    · obtain ⟨k, l, hl, rfl⟩ : ∃ k l, l < len ∧ t = (k + 1) * len + l := by
        refine ⟨t / len - 1, t % len, Nat.mod_lt _ (by omega), ?_⟩
        have h1 : 1 ≤ t / len := (Nat.one_le_div_iff (by omega)).2 (by omega)
        rw [Nat.sub_add_cancel h1]; exact eq_mul_add len t
      obtain ⟨ki, li, hli, rfl⟩ : ∃ k l, l < len ∧ i = k * len + l :=
        ⟨i / len, i % len, Nat.mod_lt _ (by omega), eq_mul_add len i⟩
      have hk1 : (k + 1) * len = k * len + len := by rw [Nat.add_mul, Nat.one_mul]
      have heq : ∀ l', l' < len → (ki * len + li = k * len + l' ↔ ki = k ∧ li = l') := by
        intro l' hl'
        constructor
        · intro h1
          have h2 := congrArg (· / len) h1
          have h3 := congrArg (· % len) h1
          simp only [fence_div hli, fence_div hl', fence_mod hli, fence_mod hl'] at h2 h3
          exact ⟨h2, h3⟩
        · rintro ⟨rfl, rfl⟩; rfl
      rw [fenceRel_iff closed hli hl, fenceOrder_step hlen closed hli hl]
      have hm : ((k + 1) * len + l) % len = l := fence_mod hl
      unfold fencePast
      rw [if_neg ht, hm]
      have e1 : (k + 1) * len + l - len = k * len + l := by omega
      by_cases hl0 : l = 0
      · subst hl0
        have e2 : (k + 1) * len + 0 - 1 = k * len + (len - 1) := by omega
        rw [if_pos rfl, e1, e2]
        cases closed
        · simp only [Bool.false_eq_true, if_true, if_false, List.mem_cons, List.not_mem_nil, or_false,
            exists_eq_left, fenceRel_iff _ hli hl, heq 0 hl, ne_eq, not_true_eq_false, false_and]
        · simp only [if_true, List.mem_cons, List.not_mem_nil, or_false, exists_eq_or_imp,
            exists_eq_left, fenceRel_iff _ hli hl, fenceRel_iff _ hli (show len - 1 < len by omega),
            heq 0 hl, heq (len - 1) (show len - 1 < len by omega), or_true, true_and]
          rw [or_comm]
      · have e2 : (k + 1) * len + l - len - 1 = k * len + (l - 1) := by omega
        rw [if_neg hl0, e2, e1]
        simp only [List.mem_cons, List.not_mem_nil, or_false, exists_eq_or_imp,
            exists_eq_left, fenceRel_iff _ hli hl, fenceRel_iff _ hli (show l - 1 < len by omega),
            heq l hl, heq (l - 1) (show l - 1 < len by omega), ne_eq, hl0, not_false_eq_true, true_or,
            true_and, if_false]
        rw [or_comm]
  · have h1 := hr.1
    have h2 := Nat.div_le_div_right (c := len) hj
    omega

theorem fence_first_round (it : Iter) {len : ℕ} (hlen : 2 ≤ len) (closed : Bool) {h0 : Heap}
    (v : h0.Valid) :
    ∃ h', newEvents it ((List.range len).map (fun (l : ℕ) => (some (.int ((l : ℤ) + 1)), []))) h0 =
        ((List.range' 0 len).map (h0.next + ·), h') ∧
      Built h0 (fenceRel len closed) (fun u => some (.int ((u : ℤ) + 1))) len h' := by
  obtain ⟨h', h1, h2⟩ := Built.newEvents it v (R := fenceRel len closed)
    (lab := fun u => some (.int ((u : ℤ) + 1))) (fencePast len closed) len 0 h0 (Built.zero v)
    (fun t _ _ => fence_conditions hlen closed t)
  rw [Nat.zero_add] at h2
  refine ⟨h', ?_, h2⟩
  rw [← h1]
  congr 1
  rw [List.range_eq_range']
  refine List.map_congr_left fun t ht => ?_
  rw [fencePast, if_pos]
  · rfl
  · have := List.mem_range'_1.1 ht; omega

theorem fence_round (it : Iter) {len : ℕ} (hlen : 2 ≤ len) (closed : Bool) {h0 h : Heap}
    (v : h0.Valid) (k : ℕ)
    (b : Built h0 (fenceRel len closed) (fun u => some (.int ((u : ℤ) + 1))) ((k + 1) * len) h) :
    ∃ h', fenceRound it len closed (k + 1) ((List.range' (k * len) len).map (h0.next + ·)) h =
        ((List.range' ((k + 1) * len) len).map (h0.next + ·), h') ∧
      Built h0 (fenceRel len closed) (fun u => some (.int ((u : ℤ) + 1))) ((k + 1 + 1) * len) h' := by
  obtain ⟨h', h1, h2⟩ := Built.newEvents it v (fencePast len closed) len ((k + 1) * len) h b
    (fun t _ _ => fence_conditions hlen closed t)
  have hk2 : (k + 1 + 1) * len = (k + 1) * len + len := by rw [Nat.add_mul (k + 1), Nat.one_mul]
  refine ⟨h', ?_, by rw [hk2]; exact h2⟩
  rw [← h1]
  unfold fenceRound
  dsimp only
  congr 1
  rw [List.range'_eq_map_range (s := (k + 1) * len), List.map_map]
  refine List.map_congr_left fun l hl => ?_
  have hl' := List.mem_range.1 hl
  have hk1 : (k + 1) * len = k * len + len := by rw [Nat.add_mul, Nat.one_mul]
  have hget : ∀ i < len, ((List.range' (k * len) len).map (h0.next + ·)).getD i 0 =
      h0.next + (k * len + i) := by
    intro i hi
    rw [List.getD_eq_getElem?_getD, List.getElem?_map, List.getElem?_range' hi]
    simp
  simp only [Function.comp_apply, Prod.mk.injEq, Option.some.injEq, Label.int.injEq]
  refine ⟨by push_cast; ring, ?_⟩
  unfold fencePast
  have ht : ¬ (k + 1) * len + l < len := by omega
  rw [if_neg ht, fence_mod hl', List.length_map, List.length_range', hget l hl']
  by_cases hl0 : l = 0
  · subst hl0
    rw [if_pos rfl, if_pos rfl, hget 0 hl', hget (len - 1) (by omega)]
    have e2 : (k + 1) * len + 0 - 1 = k * len + (len - 1) := by omega
    have e1 : (k + 1) * len + 0 - len = k * len + 0 := by omega
    rw [e1, e2]
    cases closed <;> rfl
  · rw [if_neg hl0, if_neg hl0, hget (l - 1) (by omega)]
    have e1 : (k + 1) * len + l - len = k * len + l := by omega
    have e2 : k * len + l - 1 = k * len + (l - 1) := by omega
    rw [e1, e2]
    rfl

theorem fenceLoop_spec (it : Iter) {len : ℕ} (hlen : 2 ≤ len) (closed : Bool) {h0 : Heap}
    (v : h0.Valid) : ∀ (n k : ℕ) (s : Finset EId) (h : Heap),
    Built h0 (fenceRel len closed) (fun u => some (.int ((u : ℤ) + 1))) ((k + 1) * len) h →
    s = ((List.range ((k + 1) * len)).map (h0.next + ·)).toFinset →
    ∃ h', fenceLoop it len closed n (k + 1) ((List.range' (k * len) len).map (h0.next + ·)) s h =
        (((List.range ((k + 1 + n) * len)).map (h0.next + ·)).toFinset, h') ∧
      Built h0 (fenceRel len closed) (fun u => some (.int ((u : ℤ) + 1))) ((k + 1 + n) * len) h' := by
  intro n
  induction n with
  | zero => intro k s h b hs; exact ⟨h, by rw [fenceLoop, hs], b⟩
  | succ n ih =>
    intro k s h b hs
    obtain ⟨h1, e1, b1⟩ := fence_round it hlen closed v k b
    unfold fenceLoop
    dsimp only
    rw [e1]
    obtain ⟨h', e2, b2⟩ := ih (k + 1)
      (s ∪ ((List.range' ((k + 1) * len) len).map (h0.next + ·)).toFinset) h1 b1 (by
        have hk2 : (k + 1 + 1) * len = (k + 1) * len + len := by rw [Nat.add_mul (k + 1), Nat.one_mul]
        rw [hs, hk2]
        ext x
        simp only [Finset.mem_union, List.mem_toFinset, List.mem_map, List.mem_range,
          List.mem_range'_1]
        constructor
        · rintro (⟨a, ha, rfl⟩ | ⟨a, ha, rfl⟩)
          exacts [⟨a, by omega, rfl⟩, ⟨a, by omega, rfl⟩]
        · rintro ⟨a, ha, rfl⟩
          by_cases h3 : a < (k + 1) * len
          exacts [Or.inl ⟨a, h3, rfl⟩, Or.inr ⟨a, by omega, rfl⟩])
    have e3 : k + 1 + (n + 1) = k + 1 + 1 + n := by omega
    refine ⟨h', ?_, ?_⟩
    · rw [e3]; exact e2
    · rw [e3]; exact b2

/-- **C12.** For length ≥ 2 and height ≥ 0, `NewFence(length, height, closed)` returns (height+1)·length new
events; the event at height `k` and position `l` is labelled `k·length + l + 1`, and the order is the fence
order. -/
theorem C12_newFence (it : Iter) (length height : ℤ) (closed : Bool) (h : Heap) (v : h.Valid)
    (hl : 2 ≤ length) (hh : 0 ≤ height) :
    ∃ (ids : Fin (height.toNat + 1) × Fin length.toNat → EId) (h' : Heap),
      newFence it length height closed h = (.ok (Finset.univ.image ids), h') ∧
      h.Realises h' ids (fun a b => FenceOrder length.toNat closed a.1 a.2 b.1 b.2) ∧
      (∀ a, h'.label (ids a) = some (.int ((a.1 : ℕ) * length + (a.2 : ℕ) + 1))) ∧
      ((Finset.univ.image ids).card : ℤ) = (height + 1) * length := by
  obtain ⟨n, rfl⟩ : ∃ n : ℕ, length = n := ⟨length.toNat, by omega⟩
  obtain ⟨k, rfl⟩ : ∃ k : ℕ, height = k := ⟨height.toNat, by omega⟩
  have hn : 2 ≤ n := by omega
  simp only [Int.toNat_natCast]
  obtain ⟨h1, e1, b1⟩ := fence_first_round it hn closed v
  obtain ⟨h', e2, b2⟩ := fenceLoop_spec it hn closed v k 0
    ((List.range' 0 n).map (h.next + ·)).toFinset h1 (by simpa using b1)
    (by simp [List.range_eq_range'])
  have hmul : ∀ (a : Fin (k + 1) × Fin n), (a.1 : ℕ) * n + a.2 < (0 + 1 + k) * n := by
    rintro ⟨a, b⟩
    have h3 : ((a : ℕ) + 1) * n ≤ (0 + 1 + k) * n := Nat.mul_le_mul_right _ (by have := a.2; omega)
    have h4 : ((a : ℕ) + 1) * n = a * n + n := by rw [Nat.add_mul, Nat.one_mul]
    have := b.2
    simp only
    omega
  have r := b2.realises v (ι := Fin (k + 1) × Fin n) (fun a => (a.1 : ℕ) * n + a.2)
    (fun a b hab => by
      have h2 := congrArg (· / n) hab
      have h3 := congrArg (· % n) hab
      simp only [fence_div a.2.2, fence_div b.2.2, fence_mod a.2.2, fence_mod b.2.2] at h2 h3
      exact Prod.ext (Fin.ext h2) (Fin.ext h3))
    hmul
    (fun m hm => by
      have h3 : m / n < k + 1 := by
        rw [Nat.div_lt_iff_lt_mul (by omega)]
        have : 0 + 1 + k = k + 1 := by omega
        rwa [this] at hm
      exact ⟨⟨⟨m / n, h3⟩, ⟨m % n, Nat.mod_lt _ (by omega)⟩⟩, (eq_mul_add n m).symm⟩)
    (fun a b => FenceOrder n closed a.1 a.2 b.1 b.2)
    (fun a b => fenceRel_iff closed a.2.2 b.2.2)
  have hset : ((List.range ((0 + 1 + k) * n)).map (h.next + ·)).toFinset =
      Finset.univ.image (fun a : Fin (k + 1) × Fin n => h.next + ((a.1 : ℕ) * n + a.2)) := by
    ext x
    simp only [List.mem_toFinset, List.mem_map, List.mem_range, Finset.mem_image, Finset.mem_univ,
      true_and]
    constructor
    · rintro ⟨m, hm, rfl⟩
      have h3 : m / n < k + 1 := by
        rw [Nat.div_lt_iff_lt_mul (by omega)]
        have : 0 + 1 + k = k + 1 := by omega
        rwa [this] at hm
      exact ⟨⟨⟨m / n, h3⟩, ⟨m % n, Nat.mod_lt _ (by omega)⟩⟩, by
        simp only; rw [← eq_mul_add n m]⟩
    · rintro ⟨a, rfl⟩
      exact ⟨_, hmul a, rfl⟩
  refine ⟨_, h', ?_, r, fun a => ?_, ?_⟩
  · unfold newFence
    rw [if_neg (by omega), if_neg (by omega)]
    simp only [Int.toNat_natCast]
    rw [e1]
    dsimp only
    rw [Nat.zero_mul, Nat.zero_add] at e2
    rw [e2]
    dsimp only
    rw [Nat.zero_add] at hset
    rw [hset, r.causetInit v it]
  · rw [b2.label _ (hmul a)]; push_cast; rfl
  · rw [Finset.card_image_of_injective _ r.injective]
    simp

/-- **C12, length 1** is a chain of height + 1 events. -/
theorem C12_newFence_one (it : Iter) (height : ℤ) (closed : Bool) (h : Heap) (v : h.Valid)
    (hh : 0 ≤ height) :
    ∃ (ids : Fin (height + 1).toNat → EId) (h' : Heap),
      newFence it 1 height closed h = (.ok (Finset.univ.image ids), h') ∧
      h.Realises h' ids (fun u w => u < w) := by
  obtain ⟨ids, h', h1, h2, -⟩ := C11_newChain it .default (height + 1) h v
  refine ⟨ids, h', ?_, h2⟩
  rw [← h1]
  unfold newFence
  rw [if_neg (by omega), if_pos rfl]

/-- **C12, degenerate arguments** give the empty causet and create nothing. -/
theorem C12_newFence_empty (it : Iter) (length height : ℤ) (closed : Bool) (h : Heap) (v : h.Valid)
    (hh : length < 1 ∨ height < 0) : newFence it length height closed h = (.ok ∅, h) := by
  unfold newFence
  rw [if_pos hh, C09_causet_of_closed it v ∅ (by simp) (fun a ha => by simp at ha)]

/-- `NewCrown` is the closed fence of height 1. -/
theorem C12_newCrown (it : Iter) (length : ℤ) (h : Heap) (v : h.Valid) (hl : 2 ≤ length) :
    ∃ (ids : Fin 2 × Fin length.toNat → EId) (h' : Heap),
      newCrown it length h = (.ok (Finset.univ.image ids), h') ∧
      h.Realises h' ids (fun a b => FenceOrder length.toNat true a.1 a.2 b.1 b.2) := by
  obtain ⟨ids, h', h1, h2, -⟩ := C12_newFence it length 1 true h v hl (by decide)
  exact ⟨ids, h', h1, h2⟩

/-- in a closed fence of length 3 and height 2 position 2 at the bottom precedes positions 2 and 0 one
layer up, not 1, and everything two layers up; in the open fence it precedes only position 2 -/
example : FenceOrder 3 true 0 2 1 0 ∧ FenceOrder 3 true 0 2 1 2 ∧ ¬ FenceOrder 3 true 0 2 1 1 ∧
    FenceOrder 3 true 0 2 2 1 ∧ ¬ FenceOrder 3 false 0 2 1 0 ∧ FenceOrder 3 false 0 2 2 2 := by
  refine ⟨⟨by decide, 1, by decide⟩, ⟨by decide, 0, by decide⟩, ?_, ⟨by decide, 2, by decide⟩, ?_,
    ⟨by decide, 0, by decide⟩⟩
  · rintro ⟨-, d, hd, h2⟩
    simp only [if_true] at h2; omega
  · rintro ⟨-, d, hd, h2⟩
    simp at h2

end Causets
