import Verif.Model.Distance
import Verif.Props.Layered
import Mathlib.Combinatorics.SimpleGraph.Metric

/-! # C40: `DistanceMatrix` -/

namespace Causets

open Heap

variable {h : Heap}

/-! ## helpers -/

theorem minSel_none (f : ℕ → ℤ) (L : List ℕ) : minSel f L = none ↔ L = [] := by
  cases L with
  | nil => simp [minSel]
  | cons m ms => simp only [minSel]; cases minSel f ms <;> simp

theorem minSel_some (f : ℕ → ℤ) : ∀ (L : List ℕ) (x : ℤ), minSel f L = some x →
    (∃ m ∈ L, f m = x) ∧ ∀ m ∈ L, x ≤ f m := by
  intro L
  induction L with
  | nil => intro x hx; simp [minSel] at hx
  | cons m ms ih =>
    intro x hx
    simp only [minSel] at hx
    cases hms : minSel f ms with
    | none =>
      rw [hms] at hx
      simp only [Option.some.injEq] at hx
      rw [minSel_none] at hms
      subst hms
      exact ⟨⟨m, by simp, hx⟩, by simp [hx]⟩
    | some y =>
      rw [hms] at hx
      simp only [Option.some.injEq] at hx
      obtain ⟨⟨m', hm', he⟩, hle⟩ := ih y hms
      constructor
      · rcases min_choice (f m) y with h1 | h1
        · exact ⟨m, by simp, by rw [← hx, h1]⟩
        · exact ⟨m', by simp [hm'], by rw [← hx, h1, he]⟩
      · intro z hz
        rcases List.mem_cons.1 hz with rfl | hz
        · rw [← hx]; exact min_le_left _ _
        · rw [← hx]; exact (min_le_right _ _).trans (hle z hz)

/-- number of negative entries as a cardinality -/
theorem negCount_eq (l : ℕ) (D : DMat) :
    negCount l D = ((Finset.range l ×ˢ Finset.range l).filter (fun p => D p.1 p.2 < 0)).card := by
  unfold negCount
  have hnd : ((List.range l).flatMap (fun i => (List.range l).map (fun j => (i, j)))).Nodup := by
    have : (List.range l).flatMap (fun i => (List.range l).map (fun j => (i, j))) = (List.range l) ×ˢ (List.range l) := rfl
    rw [this]
    exact List.Nodup.product List.nodup_range List.nodup_range
  rw [← List.toFinset_card_of_nodup (hnd.filter _)]
  congr 2
  ext ⟨x, y⟩
  simp

/-- symmetric with zero diagonal and no entry below -1 -/
structure IsDistLike (l : ℕ) (D : DMat) : Prop where
  symm : ∀ i < l, ∀ j < l, D i j = D j i
  diag : ∀ i < l, D i i = 0
  ge : ∀ i < l, ∀ j < l, -1 ≤ D i j

theorem setSym_self (D : DMat) (i j : ℕ) (d : ℤ) : setSym D i j d i j = d := by simp [setSym]
theorem setSym_swap (D : DMat) (i j : ℕ) (d : ℤ) : setSym D i j d j i = d := by simp [setSym]
theorem setSym_other (D : DMat) {i j x y : ℕ} (d : ℤ) (hn : ¬ ((x = i ∧ y = j) ∨ (x = j ∧ y = i))) :
    setSym D i j d x y = D x y := by simp only [setSym, if_neg hn]

theorem IsDistLike.setSym {l : ℕ} {D : DMat} (hD : IsDistLike l D) {i j : ℕ} {d : ℤ} (hij : i ≠ j) (hd : -1 ≤ d) :
    IsDistLike l (setSym D i j d) where
  symm x hx y hy := by
    unfold Causets.setSym
    by_cases h1 : (x = i ∧ y = j) ∨ (x = j ∧ y = i)
    · rw [if_pos h1, if_pos (by tauto)]
    · rw [if_neg h1, if_neg (by tauto)]; exact hD.symm x hx y hy
  diag x hx := by
    unfold Causets.setSym
    rw [if_neg (by rintro (⟨h1, h2⟩ | ⟨h1, h2⟩) <;> omega)]
    exact hD.diag x hx
  ge x hx y hy := by
    unfold Causets.setSym
    split
    · exact hd
    · exact hD.ge x hx y hy

theorem negCount_setSym {l : ℕ} {D : DMat} {i j : ℕ} {d : ℤ} (hi : i < l) (hj : j < l) (hij : i ≠ j)
    (h1 : D i j < 0) (h2 : D j i < 0) (hd : 0 ≤ d) : negCount l (setSym D i j d) = negCount l D - 2 := by
  rw [negCount_eq, negCount_eq]
  have : (Finset.range l ×ˢ Finset.range l).filter (fun p => D p.1 p.2 < 0) =
      insert (i, j) (insert (j, i) ((Finset.range l ×ˢ Finset.range l).filter (fun p => setSym D i j d p.1 p.2 < 0))) := by
    ext ⟨x, y⟩
    simp only [Finset.mem_filter, Finset.mem_product, Finset.mem_range, Finset.mem_insert, Prod.mk.injEq]
    by_cases hxy : (x = i ∧ y = j) ∨ (x = j ∧ y = i)
    · rcases hxy with ⟨rfl, rfl⟩ | ⟨rfl, rfl⟩
      · simp [hi, hj, h1]
      · simp [hi, hj, h2]
    · rw [setSym_other D d hxy]
      tauto
  rw [this, Finset.card_insert_of_notMem, Finset.card_insert_of_notMem]
  · push_cast; omega
  · simp only [Finset.mem_filter, setSym_swap, not_and, not_lt]
    exact fun _ => hd
  · simp only [Finset.mem_insert, Prod.mk.injEq, Finset.mem_filter, setSym_self, not_or, not_and, not_lt]
    exact ⟨fun h1 => absurd h1 hij, fun _ => hd⟩

theorem negCount_zero {l : ℕ} {D : DMat} (h0 : negCount l D = 0) {i j : ℕ} (hi : i < l) (hj : j < l) : 0 ≤ D i j := by
  rw [negCount_eq] at h0
  by_contra hn
  have : (i, j) ∈ (Finset.range l ×ˢ Finset.range l).filter (fun p => D p.1 p.2 < 0) := by
    simp only [Finset.mem_filter, Finset.mem_product, Finset.mem_range]
    exact ⟨⟨hi, hj⟩, by omega⟩
  have h1 := Finset.card_pos.2 ⟨_, this⟩
  omega

/-! ## the nested loops -/

/-- `P` survives every update of the nested loops for the given `k` -/
def StepClosed (l k : ℕ) (P : DMat → Prop) : Prop :=
  ∀ D i j m, i < l → j < l → m < l → IsDistLike l D → P D → D i m = k → D j m = 1 → D i j < 0 →
    P (setSym D i j (k + 1))

/-- only negative entries change, and only to `k + 1` -/
def GrowsBy (l : ℕ) (k : ℕ) (D D' : DMat) : Prop :=
  ∀ x < l, ∀ y < l, D' x y = D x y ∨ (D x y < 0 ∧ D' x y = k + 1)

theorem GrowsBy.trans {l k : ℕ} {D D' D'' : DMat} (h1 : GrowsBy l k D D') (h2 : GrowsBy l k D' D'') : GrowsBy l k D D'' := by
  intro x hx y hy
  have a := h1 x hx y hy
  have b := h2 x hx y hy
  omega

/-- no further update is possible in row `i` -/
def RowDone (l k : ℕ) (D : DMat) (i : ℕ) : Prop :=
  ∀ j < l, ∀ m < l, D i j < 0 → D i m = k → D j m ≠ 1

theorem RowDone.grow {l k : ℕ} {D D' : DMat} (hk : 1 ≤ k) {i : ℕ} (hi : i < l) (h1 : RowDone l k D i) (h2 : GrowsBy l k D D') :
    RowDone l k D' i := by
  intro j hj m hm h3 h4 h5
  have a := h2 i hi j hj
  have b := h2 i hi m hm
  have c := h2 j hj m hm
  refine h1 j hj m hm (by omega) (by omega) (by omega)

theorem distLoopJ_spec {l k : ℕ} (hk : 1 ≤ k) {P : DMat → Prop} (hP : StepClosed l k P) {i : ℕ} (hi : i < l)
    (conn : ℕ → Bool) : ∀ (js : List ℕ) (D : DMat) (c : ℤ), js.Nodup → (∀ j ∈ js, j < l ∧ D i j < 0) →
    (∀ m < l, conn m = true ↔ D i m = k) → IsDistLike l D → P D → c = negCount l D →
    let r := distLoopJ l i conn js D c
    IsDistLike l r.1 ∧ P r.1 ∧ r.2.1 = negCount l r.1 ∧ GrowsBy l k D r.1 ∧
      (r.2.2 = true → negCount l r.1 = 0) ∧
      (r.2.2 = false → ∀ j ∈ js, ∀ m < l, r.1 i j < 0 → r.1 i m = k → r.1 j m ≠ 1) := by
  intro js
  induction js with
  | nil =>
    intro D c _ _ _ hD hPD hc
    refine ⟨hD, hPD, hc, fun x _ y _ => Or.inl rfl, by simp [distLoopJ], fun _ j hj => by simp at hj⟩
  | cons j js ih =>
    intro D c hn hjs hconn hD hPD hc
    have hn' := List.nodup_cons.1 hn
    obtain ⟨hj, hij0⟩ := hjs j (by simp)
    have hij : i ≠ j := by
      rintro rfl
      rw [hD.diag i hi] at hij0; omega
    unfold distLoopJ
    cases hs : minSel (fun m => D i m + D j m) ((List.range l).filter (fun m => conn m && decide (D j m = 1))) with
    | none =>
      dsimp only
      rw [minSel_none] at hs
      obtain ⟨h1, h2, h3, h4, h5, h6⟩ := ih D c hn'.2 (fun x hx => hjs x (by simp [hx])) hconn hD hPD hc
      refine ⟨h1, h2, h3, h4, h5, fun hr x hx m hm => ?_⟩
      rcases List.mem_cons.1 hx with rfl | hx
      · intro e1 e2 e3
        have a := h4 i hi x hj
        have b := h4 i hi m hm
        have c := h4 x hj m hm
        have : m ∈ (List.range l).filter (fun m => conn m && decide (D x m = 1)) := by
          simp only [List.mem_filter, List.mem_range, Bool.and_eq_true, decide_eq_true_eq]
          exact ⟨hm, (hconn m hm).2 (by omega), by omega⟩
        rw [hs] at this; simp at this
      · exact h6 hr x hx m hm
    | some d =>
      obtain ⟨⟨m, hm, he⟩, -⟩ := minSel_some _ _ _ hs
      simp only [List.mem_filter, List.mem_range, Bool.and_eq_true, decide_eq_true_eq] at hm
      have hik := (hconn m hm.1).1 hm.2.1
      have hd : d = k + 1 := by omega
      subst hd
      have hD' : IsDistLike l (setSym D i j (k + 1)) := hD.setSym hij (by omega)
      have hP' := hP D i j m hi hj hm.1 hD hPD hik hm.2.2 hij0
      have hc' : c - 2 = negCount l (setSym D i j (k + 1)) := by
        rw [negCount_setSym hi hj hij hij0 (by rw [hD.symm j hj i hi]; exact hij0) (by omega), hc]
      have hg : GrowsBy l k D (setSym D i j (k + 1)) := by
        intro x hx y hy
        by_cases hxy : (x = i ∧ y = j) ∨ (x = j ∧ y = i)
        · right
          rcases hxy with ⟨rfl, rfl⟩ | ⟨rfl, rfl⟩
          · exact ⟨hij0, setSym_self _ _ _ _⟩
          · exact ⟨by rw [hD.symm _ hx _ hy]; exact hij0, setSym_swap _ _ _ _⟩
        · exact Or.inl (setSym_other D _ hxy)
      dsimp only
      split
      · next h0 =>
        exact ⟨hD', hP', hc', hg, fun _ => by rw [← hc', h0], by simp⟩
      · have hrow : ∀ x, x ≠ j → setSym D i j (k + 1) i x = D i x := fun x hx =>
          setSym_other D _ (by rintro (⟨_, h1⟩ | ⟨h1, _⟩); exacts [hx h1, hij h1])
        obtain ⟨h1, h2, h3, h4, h5, h6⟩ := ih (setSym D i j (k + 1)) (c - 2) hn'.2
          (fun x hx => by
            have := hjs x (by simp [hx])
            rw [hrow x (by rintro rfl; exact hn'.1 hx)]; exact this)
          (fun m hm => by
            by_cases hmj : m = j
            · rw [hmj, setSym_self, hconn j hj]
              omega
            · rw [hrow m hmj]; exact hconn m hm) hD' hP' hc'
        refine ⟨h1, h2, h3, hg.trans h4, h5, fun hr x hx m hm => ?_⟩
        rcases List.mem_cons.1 hx with rfl | hx
        · intro e1
          have a := h4 i hi x hj
          rw [setSym_self] at a
          omega
        · exact h6 hr x hx m hm

theorem distLoopI_spec {l k : ℕ} (hk : 1 ≤ k) {P : DMat → Prop} (hP : StepClosed l k P) :
    ∀ (is : List ℕ) (D : DMat) (c : ℤ), (∀ i ∈ is, i < l) → IsDistLike l D → P D → c = negCount l D →
    let r := distLoopI l k is D c
    IsDistLike l r.1 ∧ P r.1 ∧ r.2.1 = negCount l r.1 ∧ GrowsBy l k D r.1 ∧
      (r.2.2 = true → negCount l r.1 = 0) ∧ (r.2.2 = false → ∀ i ∈ is, RowDone l k r.1 i) := by
  intro is
  induction is with
  | nil =>
    intro D c _ hD hPD hc
    refine ⟨hD, hPD, hc, fun x _ y _ => Or.inl rfl, by simp [distLoopI], fun _ j hj => by simp at hj⟩
  | cons i is ih =>
    intro D c his hD hPD hc
    have hi := his i (by simp)
    obtain ⟨h1, h2, h3, h4, h5, h6⟩ := distLoopJ_spec hk hP hi (fun m => decide (D i m = k))
      ((List.range l).filter (fun j => D i j < 0)) D c (List.nodup_range.filter _)
      (fun j hj => by simpa using hj) (fun m _ => by simp) hD hPD hc
    unfold distLoopI
    generalize hr : distLoopJ l i (fun m => decide (D i m = k)) ((List.range l).filter (fun j => D i j < 0)) D c = r at *
    obtain ⟨D', c', b⟩ := r
    cases b with
    | true => exact ⟨h1, h2, h3, h4, h5, by simp⟩
    | false =>
      dsimp only at h1 h2 h3 h4 h5 h6 ⊢
      obtain ⟨g1, g2, g3, g4, g5, g6⟩ := ih D' c' (fun x hx => his x (by simp [hx])) h1 h2 h3
      refine ⟨g1, g2, g3, h4.trans g4, g5, fun hf x hx => ?_⟩
      rcases List.mem_cons.1 hx with rfl | hx
      · refine RowDone.grow hk hi ?_ g4
        intro j hj m hm e1 e2
        refine h6 rfl j ?_ m hm e1 e2
        simp only [List.mem_filter, List.mem_range, decide_eq_true_eq]
        have := h4 x hi j hj
        exact ⟨hj, by omega⟩
      · exact g6 hf x hx

/-- an invariant of one run of the loop over `k` -/
theorem distLoopK_inv {l : ℕ} {P : DMat → Prop} : ∀ (ks : List ℕ) (D : DMat) (c : ℤ),
    (∀ k ∈ ks, 1 ≤ k ∧ StepClosed l k P) → IsDistLike l D → P D → c = negCount l D →
    let r := distLoopK l ks D c
    IsDistLike l r.1 ∧ P r.1 ∧ (∀ x < l, ∀ y < l, 0 ≤ D x y → r.1 x y = D x y) := by
  intro ks
  induction ks with
  | nil => intro D c _ hD hPD _; exact ⟨hD, hPD, fun x _ y _ _ => rfl⟩
  | cons k ks ih =>
    intro D c hks hD hPD hc
    obtain ⟨hk, hP⟩ := hks k (by simp)
    obtain ⟨h1, h2, h3, h4, h5, h6⟩ := distLoopI_spec hk hP (List.range l) D c (by simp) hD hPD hc
    unfold distLoopK
    generalize hr : distLoopI l k (List.range l) D c = r at *
    obtain ⟨D', c', b⟩ := r
    have hkeep : ∀ x < l, ∀ y < l, 0 ≤ D x y → D' x y = D x y := fun x hx y hy h0 => by
      have := h4 x hx y hy; dsimp only at this; omega
    cases b with
    | true => exact ⟨h1, h2, hkeep⟩
    | false =>
      dsimp only at h1 h2 h3 h4 h5 h6 ⊢
      obtain ⟨g1, g2, g3⟩ := ih D' c' (fun x hx => hks x (by simp [hx])) h1 h2 h3
      refine ⟨g1, g2, fun x hx y hy h0 => ?_⟩
      have := hkeep x hx y hy h0
      rw [g3 x hx y hy (by omega), this]

/-! ## the first loop -/

/-- the value the first loop assigns to a pair -/
def nearVal (h : Heap) (C : Finset EId) (ac : List EId) (z : Bool) (slice : Finset EId) (i j : ℕ) : ℤ :=
  let d : ℤ := (h.smallestIntervalCard C (ac.getD i 0) (ac.getD j 0) (some slice) (some ac.toFinset) : ℤ) - 1
  if z then min 1 d else d

theorem nearVal_symm (v : h.Valid) (C : Finset EId) (ac : List EId) (z : Bool) (slice : Finset EId) (i j : ℕ) :
    nearVal h C ac z slice i j = nearVal h C ac z slice j i := by
  unfold nearVal
  rw [C39_symmetric v]

theorem nearVal_ge (C : Finset EId) (ac : List EId) (z : Bool) (slice : Finset EId) (i j : ℕ) :
    -1 ≤ nearVal h C ac z slice i j := by
  unfold nearVal
  dsimp only
  split <;> omega

theorem mem_pairsBelow (l : ℕ) (p : ℕ × ℕ) : p ∈ pairsBelow l ↔ p.1 < p.2 ∧ p.2 < l := by
  obtain ⟨i, j⟩ := p
  simp only [pairsBelow, List.mem_flatMap, List.mem_range, List.mem_map, List.mem_filter, decide_eq_true_eq,
    Prod.mk.injEq]
  constructor
  · rintro ⟨a, ha, b, ⟨hb, hab⟩, rfl, rfl⟩; exact ⟨hab, hb⟩
  · rintro ⟨h1, h2⟩; exact ⟨i, by omega, j, ⟨h2, h1⟩, rfl, rfl⟩

theorem nodup_pairsBelow (l : ℕ) : (pairsBelow l).Nodup := by
  unfold pairsBelow
  rw [List.nodup_flatMap]
  refine ⟨fun i _ => (List.nodup_range.filter _).map fun a b hab => by simpa using hab, ?_⟩
  refine List.nodup_range.pairwise_of_forall_ne fun i _ j _ hij => ?_
  simp only [Function.onFun, List.disjoint_left, List.mem_map]
  rintro _ ⟨a, _, rfl⟩ ⟨b, _, hb⟩
  simp only [Prod.mk.injEq] at hb
  exact hij hb.1.symm

theorem distNear_fold (v : h.Valid) (C : Finset EId) (ac : List EId) (z : Bool) (slice : Finset EId) (l : ℕ) :
    ∀ (L : List (ℕ × ℕ)) (D : DMat), L.Nodup → (∀ p ∈ L, p.1 < p.2 ∧ p.2 < l) → IsDistLike l D →
    let D' := L.foldl (fun D p => if D p.1 p.2 < 1 then setSym D p.1 p.2 (nearVal h C ac z slice p.1 p.2) else D) D
    IsDistLike l D' ∧ ∀ x < l, ∀ y < l, D' x y =
      if ((x, y) ∈ L ∨ (y, x) ∈ L) ∧ D x y < 1 then nearVal h C ac z slice x y else D x y := by
  intro L
  induction L with
  | nil => intro D _ _ hD; exact ⟨hD, by simp⟩
  | cons p L ih =>
    obtain ⟨i, j⟩ := p
    intro D hn hL hD
    obtain ⟨hij, hj⟩ := hL (i, j) (by simp)
    dsimp only at hij hj
    have hn' := List.nodup_cons.1 hn
    have hji : (j, i) ∉ L := fun hm => by
      have := (hL (j, i) (by simp [hm])).1
      dsimp only at this; omega
    rw [List.foldl_cons]
    set D1 := (if D (i, j).1 (i, j).2 < 1 then setSym D (i, j).1 (i, j).2 (nearVal h C ac z slice (i, j).1 (i, j).2) else D)
      with hD1
    have hD1' : IsDistLike l D1 := by
      rw [hD1]
      split
      · exact hD.setSym (by simp; omega) (nearVal_ge _ _ _ _ _ _)
      · exact hD
    obtain ⟨h1, h2⟩ := ih D1 hn'.2 (fun p hp => hL p (by simp [hp])) hD1'
    refine ⟨h1, fun x hx y hy => ?_⟩
    rw [h2 x hx y hy]
    by_cases hxy : (x = i ∧ y = j) ∨ (x = j ∧ y = i)
    · have hnot : ¬ (((x, y) ∈ L ∨ (y, x) ∈ L) ∧ D1 x y < 1) := by
        rcases hxy with ⟨rfl, rfl⟩ | ⟨rfl, rfl⟩
        · exact fun hh => hh.1.elim hn'.1 hji
        · exact fun hh => hh.1.elim hji hn'.1
      rw [if_neg hnot]
      have hin : (x, y) ∈ (i, j) :: L ∨ (y, x) ∈ (i, j) :: L := by
        rcases hxy with ⟨rfl, rfl⟩ | ⟨rfl, rfl⟩ <;> simp
      have hDxy : D x y = D i j := by
        rcases hxy with ⟨rfl, rfl⟩ | ⟨rfl, rfl⟩
        · rfl
        · exact hD.symm _ hx _ hy
      have hv : nearVal h C ac z slice x y = nearVal h C ac z slice i j := by
        rcases hxy with ⟨rfl, rfl⟩ | ⟨rfl, rfl⟩
        · rfl
        · exact nearVal_symm v _ _ _ _ _ _
      rw [hDxy, hv]
      dsimp only at hD1
      by_cases hlt : D i j < 1
      · rw [if_pos ⟨hin, hlt⟩, hD1, if_pos hlt]
        rcases hxy with ⟨rfl, rfl⟩ | ⟨rfl, rfl⟩
        · exact setSym_self _ _ _ _
        · exact setSym_swap _ _ _ _
      · rw [if_neg (fun hh => hlt hh.2), hD1, if_neg hlt, hDxy]
    · have hD1xy : D1 x y = D x y := by
        rw [hD1]
        dsimp only
        split
        · exact setSym_other D _ hxy
        · rfl
      have hin : ((x, y) ∈ (i, j) :: L ∨ (y, x) ∈ (i, j) :: L) ↔ ((x, y) ∈ L ∨ (y, x) ∈ L) := by
        simp only [List.mem_cons, Prod.mk.injEq]
        tauto
      rw [hD1xy]
      simp only [hin]

/-- the first loop recomputes exactly the off-diagonal entries below 1 -/
theorem distNear_spec (v : h.Valid) (C : Finset EId) (ac : List EId) (z : Bool) (slice : Finset EId) (D : DMat)
    (hD : IsDistLike ac.length D) :
    IsDistLike ac.length (h.distNear C ac z slice D) ∧ ∀ x < ac.length, ∀ y < ac.length,
      h.distNear C ac z slice D x y = if x ≠ y ∧ D x y < 1 then nearVal h C ac z slice x y else D x y := by
  obtain ⟨h1, h2⟩ := distNear_fold v C ac z slice ac.length (pairsBelow ac.length) D (nodup_pairsBelow _)
    (fun p hp => (mem_pairsBelow _ p).1 hp) hD
  refine ⟨h1, fun x hx y hy => (h2 x hx y hy).trans ?_⟩
  have : ((x, y) ∈ pairsBelow ac.length ∨ (y, x) ∈ pairsBelow ac.length) ↔ x ≠ y := by
    rw [mem_pairsBelow, mem_pairsBelow]
    dsimp only
    omega
  simp only [this]

/-- two distinct events of an antichain are near if they have a common past or future event in the slice -/
def NearIn (h : Heap) (slice : Finset EId) (a b : EId) : Prop :=
  ∃ e ∈ slice, (h.Lt e a ∧ h.Lt e b) ∨ (h.Lt a e ∧ h.Lt b e)

theorem minOver_ge {α : Type} (s : Finset α) (f : α → ℕ) (k : ℕ) (hs : s.Nonempty) (hk : ∀ x ∈ s, k ≤ f x) :
    k ≤ Heap.minOver s f := by
  unfold Heap.minOver
  rw [dif_pos hs]
  exact (Finset.le_inf'_iff hs f).2 hk

theorem two_le_card_of_mem {s : Finset EId} {a b : EId} (ha : a ∈ s) (hb : b ∈ s) (hab : a ≠ b) : 2 ≤ s.card :=
  Finset.one_lt_card.2 ⟨a, ha, b, hb, hab⟩

theorem smallestIntervalCard_antichain (v : h.Valid) (C slice : Finset EId) (ac : List EId)
    (hac : IsAntichainSet h.Lt ac.toFinset) (a b : EId) (ha : a ∈ ac) (hb : b ∈ ac) (hab : a ≠ b) :
    (NearIn h slice a b → 2 ≤ h.smallestIntervalCard C a b (some slice) (some ac.toFinset)) ∧
    (¬ NearIn h slice a b → h.smallestIntervalCard C a b (some slice) (some ac.toFinset) = 0) := by
  have ha' : a ∈ ac.toFinset := List.mem_toFinset.2 ha
  have hb' : b ∈ ac.toFinset := List.mem_toFinset.2 hb
  have h1 : ¬ h.Lt a b := hac a ha' b hb'
  have h2 : ¬ h.Lt b a := hac b hb' a ha'
  have hgt : h.gt a b = false := by
    rw [Bool.eq_false_iff, ne_eq]
    simp only [gt, decide_eq_true_eq]
    rw [← lt_iff]; exact h2
  have hle : h.le a b = false := by
    rw [Bool.eq_false_iff, ne_eq, le_iff]; tauto
  have hs : h.smallestIntervalCard C a b (some slice) (some ac.toFinset) =
      h.smallestCommon a b slice (some ac.toFinset) := by
    simp [smallestIntervalCard, hgt, hle]
  rw [hs]
  unfold smallestCommon
  have mp : ∀ e, e ∈ h.past a ∩ h.past b ∩ slice ↔ (h.Lt e a ∧ h.Lt e b) ∧ e ∈ slice := fun e => by
    simp only [Finset.mem_inter, v.past_eq]
  have mf : ∀ e, e ∈ h.future a ∩ h.future b ∩ slice ↔ (h.Lt a e ∧ h.Lt b e) ∧ e ∈ slice := fun e => by
    simp only [Finset.mem_inter, v.future_eq]
  have hnear : NearIn h slice a b ↔
      ¬ (h.past a ∩ h.past b ∩ slice = ∅ ∧ h.future a ∩ h.future b ∩ slice = ∅) := by
    simp only [Finset.eq_empty_iff_forall_notMem, mp, mf]
    unfold NearIn
    constructor
    · rintro ⟨e, he, h3 | h3⟩ ⟨h4, h5⟩
      · exact h4 e ⟨h3, he⟩
      · exact h5 e ⟨h3, he⟩
    · intro hn
      by_contra hc
      push Not at hc
      exact hn ⟨fun e he => (hc e he.2).1 he.1.1 he.1.2, fun e he => (hc e he.2).2 he.1.1 he.1.2⟩
  dsimp only
  constructor
  · intro hn
    rw [hnear] at hn
    rw [if_neg hn]
    split
    · next hp =>
      have hf : (h.future a ∩ h.future b ∩ slice).Nonempty := by
        rw [Finset.nonempty_iff_ne_empty]; tauto
      refine minOver_ge _ _ _ hf fun e he => ?_
      rw [mf] at he
      refine two_le_card_of_mem (a := a) (b := b) ?_ ?_ hab
      · rw [Finset.mem_inter, v.past_eq]; exact ⟨he.1.1, ha'⟩
      · rw [Finset.mem_inter, v.past_eq]; exact ⟨he.1.2, hb'⟩
    · next hp =>
      split
      · have hf : (h.past a ∩ h.past b ∩ slice).Nonempty := Finset.nonempty_iff_ne_empty.2 hp
        refine minOver_ge _ _ _ hf fun e he => ?_
        rw [mp] at he
        refine two_le_card_of_mem (a := a) (b := b) ?_ ?_ hab
        · rw [Finset.mem_inter, v.future_eq]; exact ⟨he.1.1, ha'⟩
        · rw [Finset.mem_inter, v.future_eq]; exact ⟨he.1.2, hb'⟩
      · next hf =>
        refine minOver_ge _ _ _ (Finset.Nonempty.product (Finset.nonempty_iff_ne_empty.2 hp)
          (Finset.nonempty_iff_ne_empty.2 hf)) fun e he => ?_
        rw [Finset.mem_product, mp, mf] at he
        refine two_le_card_of_mem (a := a) (b := b) ?_ ?_ hab
        · rw [Finset.mem_inter, C26_interval v, le_iff, le_iff]
          exact ⟨⟨Or.inr he.1.1.1, Or.inr he.2.1.1⟩, ha'⟩
        · rw [Finset.mem_inter, C26_interval v, le_iff, le_iff]
          exact ⟨⟨Or.inr he.1.1.2, Or.inr he.2.1.2⟩, hb'⟩
  · intro hn
    rw [hnear, not_not] at hn
    rw [if_pos hn]

theorem nearVal_antichain (v : h.Valid) (C slice : Finset EId) (ac : List EId) (hnd : ac.Nodup)
    (hac : IsAntichainSet h.Lt ac.toFinset) (z : Bool) (i j : ℕ) (hi : i < ac.length) (hj : j < ac.length) (hij : i ≠ j) :
    (NearIn h slice ac[i] ac[j] → 1 ≤ nearVal h C ac z slice i j ∧ (z = true → nearVal h C ac z slice i j = 1)) ∧
    (¬ NearIn h slice ac[i] ac[j] → nearVal h C ac z slice i j = -1) := by
  have hne : ac[i] ≠ ac[j] := fun he => hij ((hnd.getElem_inj_iff).1 he)
  have := smallestIntervalCard_antichain v C slice ac hac ac[i] ac[j] (List.getElem_mem hi) (List.getElem_mem hj) hne
  have e1 : ac.getD i 0 = ac[i] := by simp [List.getD, hi]
  have e2 : ac.getD j 0 = ac[j] := by simp [List.getD, hj]
  unfold nearVal
  rw [e1, e2]
  dsimp only
  constructor
  · intro hn
    have h2 := this.1 hn
    constructor
    · split <;> omega
    · intro hz; rw [if_pos hz]; omega
  · intro hn
    have h2 := this.2 hn
    rw [h2]
    split <;> rfl

/-! ## the `while` loop -/

theorem layers_subset (it : Iter) (v : h.Valid) (s : Finset EId) (first : ℤ) (last : Option ℤ) :
    h.layers it s first last ⊆ Finset.range h.next ∪ s := by
  have hp : h.pastOf it s true false ⊆ Finset.range h.next ∪ s := fun x hx => by
    rw [C24_pastOf it v] at hx
    rw [Finset.mem_union, Finset.mem_range]
    rcases hx with hx | ⟨e, _, hx⟩
    · exact Or.inr hx.2
    · exact Or.inl (v.exists_of_lt _ _ hx).1
  have hf : h.futureOf it s true false ⊆ Finset.range h.next ∪ s := fun x hx => by
    rw [C24_futureOf it v] at hx
    rw [Finset.mem_union, Finset.mem_range]
    rcases hx with hx | ⟨e, _, hx⟩
    · exact Or.inr hx.2
    · exact Or.inl (v.exists_of_lt _ _ hx).2
  unfold layers
  dsimp only
  split
  · simp
  · have h1 : (if first ≤ 0 then (h.pastOf it s true false).filter
        (fun a => first ≤ h.layerDown s a ∧ h.layerDown s a ≤ min 0 (last.getD first)) else ∅) ⊆ Finset.range h.next ∪ s := by
      split
      · exact (Finset.filter_subset _ _).trans hp
      · simp
    split
    · exact Finset.union_subset h1 ((Finset.filter_subset _ _).trans hf)
    · exact h1

theorem layers_it (it it' : Iter) (v : h.Valid) (s : Finset EId) (first : ℤ) (last : Option ℤ) :
    h.layers it s first last = h.layers it' s first last := by
  have h1 : h.pastOf it s true false = h.pastOf it' s true false := by
    ext x; rw [C24_pastOf it v, C24_pastOf it' v]
  have h2 : h.futureOf it s true false = h.futureOf it' s true false := by
    ext x; rw [C24_futureOf it v, C24_futureOf it' v]
  unfold layers
  rw [h1, h2]

theorem distWhile_spec (it : Iter) (v : h.Valid) (C : Finset EId) (ac : List EId) (z rec : Bool)
    (P : DMat → Prop)
    (hnear : ∀ D slice, IsDistLike ac.length D → P D → P (h.distNear C ac z slice D))
    (hstep : ∀ k, 1 ≤ k → StepClosed ac.length k P) :
    ∀ (fuel : ℕ) (slice thicker : Finset EId) (D : DMat), IsDistLike ac.length D → P D →
    thicker ⊆ Finset.range h.next ∪ ac.toFinset → slice ⊆ Finset.range h.next ∪ ac.toFinset →
    (Finset.range h.next ∪ ac.toFinset).card < slice.card + fuel →
    ∃ D', h.distWhile it C ac z rec fuel slice thicker D = .ok D' ∧ IsDistLike ac.length D' ∧ P D' := by
  intro fuel
  induction fuel with
  | zero =>
    intro slice thicker D _ _ _ hs hf
    have := Finset.card_le_card hs
    omega
  | succ fuel ih =>
    intro slice thicker D hD hP ht hs hf
    unfold distWhile
    split
    · next hlt =>
      have h1 := (distNear_spec v C ac z thicker D hD).1
      have h2 := hnear D thicker hD hP
      dsimp only
      cases rec with
      | false => exact ⟨_, rfl, h1, h2⟩
      | true =>
        simp only [Bool.not_true, Bool.false_eq_true, if_false]
        obtain ⟨g1, g2, -⟩ := distLoopK_inv ((List.range ac.length).filter (fun k => 1 ≤ k)) _ _
          (fun k hk => by
            have : 1 ≤ k := by simpa using (List.mem_filter.1 hk).2
            exact ⟨this, hstep k this⟩) h1 h2 rfl
        generalize distLoopK ac.length ((List.range ac.length).filter (fun k => 1 ≤ k)) (h.distNear C ac z thicker D)
          (negCount ac.length (h.distNear C ac z thicker D)) = r at g1 g2
        obtain ⟨D2, c, b⟩ := r
        cases b with
        | true => exact ⟨D2, rfl, g1, g2⟩
        | false =>
          refine ih thicker _ D2 g1 g2 ?_ ht (by omega)
          refine (layers_subset it v _ _ _).trans (Finset.union_subset Finset.subset_union_left ht)
    · exact ⟨D, rfl, hD, hP⟩

theorem zero_isDistLike (l : ℕ) : IsDistLike l (fun _ _ => 0) := ⟨fun _ _ _ _ => rfl, fun _ _ => rfl, fun _ _ _ _ => by norm_num⟩

theorem fuel_enough (ac : List EId) : (Finset.range h.next ∪ ac.toFinset).card < ac.toFinset.card + (h.next + ac.length + 1) := by
  have := Finset.card_union_le (Finset.range h.next) ac.toFinset
  rw [Finset.card_range] at this
  omega

/-- **C40.** In every consistent state, for every list of events and every iteration order, `DistanceMatrix` with a supported counting name
returns (the loops end) a symmetric matrix with zero diagonal and entries at least -1; with any other name it raises ValueError. -/
theorem C40_distanceMatrix (it : Iter) (v : h.Valid) (C : Finset EId) (ac : List EId) (counting : String) (rec : Bool) :
    (counting = "ziczac" ∨ counting = "intersection" → ∃ D, h.distanceMatrix it C ac counting rec = .ok D ∧
      (∀ i < ac.length, ∀ j < ac.length, D i j = D j i ∧ -1 ≤ D i j) ∧ ∀ i < ac.length, D i i = 0) ∧
    (counting ≠ "ziczac" → counting ≠ "intersection" →
      h.distanceMatrix it C ac counting rec = .error .valueError) := by
  constructor
  · intro hc
    have hc' : (!(counting == "ziczac") && counting != "intersection") = false := by
      rcases hc with rfl | rfl <;> decide
    unfold distanceMatrix
    rw [hc']
    simp only [Bool.false_eq_true, if_false]
    obtain ⟨D, h1, h2, -⟩ := distWhile_spec it v C ac (counting == "ziczac") rec (fun _ => True)
      (fun _ _ _ _ => trivial) (fun _ _ _ _ _ _ _ _ _ _ _ _ _ _ => trivial) (h.next + ac.length + 1) ac.toFinset
      (h.layers it ac.toFinset (-1) (some 1)) (fun _ _ => 0) (zero_isDistLike _) trivial
      (layers_subset it v _ _ _) Finset.subset_union_right (fuel_enough ac)
    exact ⟨D, h1, fun i hi j hj => ⟨h2.symm i hi j hj, h2.ge i hi j hj⟩, h2.diag⟩
  · intro h1 h2
    unfold distanceMatrix
    have : (!(counting == "ziczac") && counting != "intersection") = true := by simp [h1, h2]
    rw [this]
    rfl

/-- the result does not depend on the iteration order of sets -/
theorem C40_iteration_order (it it' : Iter) (v : h.Valid) (C : Finset EId) (ac : List EId) (counting : String) (rec : Bool) :
    h.distanceMatrix it C ac counting rec = h.distanceMatrix it' C ac counting rec := by
  have key : ∀ (z : Bool) (fuel : ℕ) (slice thicker : Finset EId) (D : DMat),
      h.distWhile it C ac z rec fuel slice thicker D = h.distWhile it' C ac z rec fuel slice thicker D := by
    intro z fuel
    induction fuel with
    | zero => intro _ _ _; rfl
    | succ fuel ih =>
      intro slice thicker D
      unfold distWhile
      rw [layers_it it it' v]
      simp only [ih]
  unfold distanceMatrix
  rw [layers_it it it' v, key]

/-- **C40, values.** For an antichain (a list of different, unrelated events) with at least one event next to it (so that the loop is entered),
every off-diagonal entry is -1 (disconnected) or at least 1. -/
theorem C40_values (it : Iter) (v : h.Valid) (C : Finset EId) (ac : List EId) (counting : String) (rec : Bool)
    (hnd : ac.Nodup) (hac : IsAntichainSet h.Lt ac.toFinset)
    (hthick : ac.toFinset.card < (h.layers it ac.toFinset (-1) (some 1)).card) (D : DMat)
    (hD : h.distanceMatrix it C ac counting rec = .ok D) :
    ∀ i < ac.length, ∀ j < ac.length, i ≠ j → D i j = -1 ∨ 1 ≤ D i j := by
  set P : DMat → Prop := fun D => ∀ i < ac.length, ∀ j < ac.length, i ≠ j → D i j = -1 ∨ 1 ≤ D i j with hP
  have hnear : ∀ z D slice, IsDistLike ac.length D → P (h.distNear C ac z slice D) := by
    intro z D slice hD i hi j hj hij
    rw [(distNear_spec v C ac z slice D hD).2 i hi j hj]
    split
    · by_cases hn : NearIn h slice ac[i] ac[j]
      · exact Or.inr ((nearVal_antichain v C slice ac hnd hac z i j hi hj hij).1 hn).1
      · exact Or.inl ((nearVal_antichain v C slice ac hnd hac z i j hi hj hij).2 hn)
    · next hc => right; push Not at hc; exact hc hij
  have hstep : ∀ k, 1 ≤ k → StepClosed ac.length k P := by
    intro k hk D i j m hi hj hm hD hPD _ _ _ x hx y hy hxy
    by_cases hh : (x = i ∧ y = j) ∨ (x = j ∧ y = i)
    · right
      have : setSym D i j (k + 1) x y = k + 1 := by unfold setSym; rw [if_pos hh]
      rw [this]; omega
    · rw [setSym_other D _ hh]; exact hPD x hx y hy hxy
  unfold distanceMatrix at hD
  by_cases hc : (!(counting == "ziczac") && counting != "intersection") = true
  · rw [if_pos hc] at hD; simp at hD
  rw [if_neg hc, distWhile.eq_def] at hD
  simp only [hthick, if_true] at hD
  cases rec with
  | false =>
    simp only [Bool.not_false, if_true, Except.ok.injEq] at hD
    rw [← hD]
    exact hnear _ _ _ (zero_isDistLike _)
  | true =>
    simp only [Bool.not_true, Bool.false_eq_true, if_false] at hD
    have h1 := (distNear_spec v C ac (counting == "ziczac") (h.layers it ac.toFinset (-1) (some 1)) _ (zero_isDistLike _)).1
    have h2 := hnear (counting == "ziczac") _ (h.layers it ac.toFinset (-1) (some 1)) (zero_isDistLike _)
    obtain ⟨g1, g2, -⟩ := distLoopK_inv ((List.range ac.length).filter (fun k => 1 ≤ k)) _ _
          (fun k hk => by
            have : 1 ≤ k := by simpa using (List.mem_filter.1 hk).2
            exact ⟨this, hstep k this⟩) h1 h2 rfl
    generalize distLoopK ac.length ((List.range ac.length).filter (fun k => 1 ≤ k))
      (h.distNear C ac (counting == "ziczac") (h.layers it ac.toFinset (-1) (some 1)) (fun _ _ => 0))
          (negCount ac.length (h.distNear C ac (counting == "ziczac") (h.layers it ac.toFinset (-1) (some 1))
            (fun _ _ => 0))) = r at g1 g2 hD
    obtain ⟨D2, c, b⟩ := r
    cases b with
    | true =>
      simp only [Except.ok.injEq] at hD
      rw [← hD]; exact g2
    | false =>
      dsimp only at hD
      obtain ⟨D', e1, -, e2⟩ := distWhile_spec it v C ac (counting == "ziczac") true P (fun D slice hD _ => hnear _ D slice hD)
        hstep (h.next + ac.length) (h.layers it ac.toFinset (-1) (some 1))
        (h.layers it (h.layers it ac.toFinset (-1) (some 1)) (-1) (some 1)) D2 g1 g2
        ((layers_subset it v _ _ _).trans (Finset.union_subset Finset.subset_union_left (layers_subset it v _ _ _)))
        (layers_subset it v _ _ _) (by have := fuel_enough (h := h) ac; omega)
      rw [e1] at hD
      simp only [Except.ok.injEq] at hD
      rw [← hD]; exact e2

/-- **C40, distances add up.** With counting 'ziczac' every entry of at least 2 is realised by an intermediate event: one step of
distance 1 and the rest. -/
theorem C40_chained (it : Iter) (v : h.Valid) (C : Finset EId) (ac : List EId) (rec : Bool) (D : DMat)
    (hD : h.distanceMatrix it C ac "ziczac" rec = .ok D) :
    ∀ i < ac.length, ∀ j < ac.length, 2 ≤ D i j → ∃ m < ac.length,
      (D i m = D i j - 1 ∧ D m j = 1) ∨ (D i m = 1 ∧ D m j = D i j - 1) := by
  set P : DMat → Prop := fun D => ∀ i < ac.length, ∀ j < ac.length, 2 ≤ D i j → ∃ m < ac.length,
      (D i m = D i j - 1 ∧ D m j = 1) ∨ (D i m = 1 ∧ D m j = D i j - 1) with hP
  have hnear : ∀ D slice, IsDistLike ac.length D → P D → P (h.distNear C ac true slice D) := by
    intro D slice hD hPD i hi j hj h2
    have hsp := (distNear_spec v C ac true slice D hD).2
    have hle : ∀ x y, nearVal h C ac true slice x y ≤ 1 := fun x y => by
      simp only [nearVal, if_true]; omega
    have hkeep : ∀ x < ac.length, ∀ y < ac.length, 1 ≤ D x y → h.distNear C ac true slice D x y = D x y := by
      intro x hx y hy h1
      rw [hsp x hx y hy, if_neg (by omega)]
    have h3 : h.distNear C ac true slice D i j = D i j := by
      rw [hsp i hi j hj] at h2 ⊢
      split at h2
      · have := hle i j; omega
      · rename_i hc; rw [if_neg hc]
    rw [h3] at h2 ⊢
    obtain ⟨m, hm, hw⟩ := hPD i hi j hj h2
    refine ⟨m, hm, ?_⟩
    rw [hkeep i hi m hm (by omega), hkeep m hm j hj (by omega)]
    exact hw
  have hstep : ∀ k, 1 ≤ k → StepClosed ac.length k P := by
    intro k hk D i j m hi hj hm hD hPD h1 h2 h3 x hx y hy hxy
    have hji : D j i < 0 := by rw [hD.symm j hj i hi]; exact h3
    have hkeep : ∀ x < ac.length, ∀ y < ac.length, 0 ≤ D x y → setSym D i j (k + 1) x y = D x y := by
      intro x hx y hy h0
      refine setSym_other D _ ?_
      rintro (⟨rfl, rfl⟩ | ⟨rfl, rfl⟩) <;> omega
    by_cases hh : (x = i ∧ y = j) ∨ (x = j ∧ y = i)
    · have hxy' : setSym D i j (k + 1) x y = k + 1 := by unfold setSym; rw [if_pos hh]
      rw [hxy']
      refine ⟨m, hm, ?_⟩
      rcases hh with ⟨rfl, rfl⟩ | ⟨rfl, rfl⟩
      · left
        rw [hkeep x hx m hm (by omega), hkeep m hm y hy (by rw [hD.symm m hm y hy]; omega), hD.symm m hm y hy]
        omega
      · right
        rw [hkeep x hx m hm (by omega), hkeep m hm y hy (by rw [hD.symm m hm y hy]; omega), hD.symm m hm y hy]
        omega
    · rw [setSym_other D _ hh] at hxy ⊢
      obtain ⟨m', hm', hw⟩ := hPD x hx y hy hxy
      refine ⟨m', hm', ?_⟩
      rw [hkeep x hx m' hm' (by omega), hkeep m' hm' y hy (by omega)]
      exact hw
  unfold distanceMatrix at hD
  simp only [beq_self_eq_true, Bool.not_true, Bool.false_and, Bool.false_eq_true, if_false] at hD
  obtain ⟨D', e1, -, e2⟩ := distWhile_spec it v C ac true rec P hnear
    hstep (h.next + ac.length + 1) ac.toFinset (h.layers it ac.toFinset (-1) (some 1)) (fun _ _ => 0)
    (zero_isDistLike _) (fun i _ j _ h2 => by simp at h2) (layers_subset it v _ _ _) Finset.subset_union_right
    (fuel_enough ac)
  rw [e1] at hD
  simp only [Except.ok.injEq] at hD
  rw [← hD]; exact e2

end Causets
