import Verif.Model.EmbPermutation
import Verif.Props.CreateOrder
import Verif.Props.Flat
import Verif.Props.Construct

/-! # C45 — `EmbeddedCauset.FromPermutation` agrees with `Causet.FromPermutation` -/

namespace Causets

open Heap

/-- **Specification.** The closed diamond (the region of the shape `'diamond'` around the origin in 2 dimensions). -/
def InDiamond (radius : ℝ) (x : Point) : Prop := |x 0| + |x 1| ≤ radius

/-- the point in cell `(a, b)` of the grid of light-cone coordinates -/
noncomputable def gridPoint (s radius : ℝ) (a b : ℕ) : Point :=
  point2 (((a : ℝ) + 0.5) * s + ((b : ℝ) + 0.5) * s - radius) (((a : ℝ) + 0.5) * s - ((b : ℝ) + 0.5) * s)

theorem gridPoint_sub (s radius : ℝ) (a b a' b' : ℕ) :
    gridPoint s radius a' b' 0 - gridPoint s radius a b 0 = ((a' : ℝ) - a + ((b' : ℝ) - b)) * s ∧
    gridPoint s radius a' b' 1 - gridPoint s radius a b 1 = ((a' : ℝ) - a - ((b' : ℝ) - b)) * s := by
  unfold gridPoint point2
  simp only [if_true, one_ne_zero, if_false]
  constructor <;> ring

/-- two cells in different rows and columns are causally related exactly if one is larger in both -/
theorem grid_causal {eps s radius : ℝ} (he : 0 ≤ eps) (hs : eps < 2 * s) {a b a' b' : ℕ} (ha : a ≠ a') (hb : b ≠ b') :
    (causalityFlat2D eps (gridPoint s radius a b) (gridPoint s radius a' b')).1 = true ↔ a < a' ∧ b < b' := by
  have hs0 : 0 < s := by linarith
  unfold causalityFlat2D
  simp only [test, Bool.and_eq_true, decide_eq_true_eq, ge_iff_le]
  obtain ⟨e0, e1⟩ := gridPoint_sub s radius a b a' b'
  rw [e0, e1, abs_mul, abs_mul, abs_of_pos hs0]
  have cast : ∀ {m n : ℕ}, m < n → (1 : ℝ) ≤ (n : ℝ) - m := fun {m n} h => by
    have : (m : ℝ) + 1 ≤ n := by exact_mod_cast h
    linarith
  rcases lt_or_gt_of_ne ha with h1 | h1 <;> rcases lt_or_gt_of_ne hb with h2 | h2
  · have k1 := cast h1
    have k2 := cast h2
    refine ⟨fun _ => ⟨h1, h2⟩, fun _ => ⟨by apply mul_nonneg <;> linarith, ?_⟩⟩
    have h3 : |(a' : ℝ) - a - ((b' : ℝ) - b)| ≤ |(a' : ℝ) - a + ((b' : ℝ) - b)| := by
      rw [abs_of_nonneg (by linarith : (0:ℝ) ≤ (a' : ℝ) - a + ((b' : ℝ) - b))]
      rw [abs_le]; constructor <;> linarith
    have := mul_le_mul_of_nonneg_right h3 hs0.le
    linarith
  · have k1 := cast h1
    have k2 := cast h2
    refine ⟨fun h => ?_, fun h => by omega⟩
    exfalso
    have h3 : |(a' : ℝ) - a - ((b' : ℝ) - b)| = ((a' : ℝ) - a) + ((b : ℝ) - b') := by
      rw [abs_of_nonneg (by linarith)]; ring
    have h4 : |(a' : ℝ) - a + ((b' : ℝ) - b)| ≤ ((a' : ℝ) - a) + ((b : ℝ) - b') - 2 := by
      rw [abs_le]; constructor <;> linarith
    have := mul_le_mul_of_nonneg_right h4 hs0.le
    rw [h3] at h
    nlinarith [h.2]
  · have k1 := cast h1
    have k2 := cast h2
    refine ⟨fun h => ?_, fun h => by omega⟩
    exfalso
    have h3 : |(a' : ℝ) - a - ((b' : ℝ) - b)| = ((a : ℝ) - a') + ((b' : ℝ) - b) := by
      rw [abs_of_nonpos (by linarith)]; ring
    have h4 : |(a' : ℝ) - a + ((b' : ℝ) - b)| ≤ ((a : ℝ) - a') + ((b' : ℝ) - b) - 2 := by
      rw [abs_le]; constructor <;> linarith
    have := mul_le_mul_of_nonneg_right h4 hs0.le
    rw [h3] at h
    nlinarith [h.2]
  · have k1 := cast h1
    have k2 := cast h2
    refine ⟨fun h => ?_, fun h => by omega⟩
    exfalso
    have := h.1
    nlinarith

theorem causalityFlat2D_self {eps : ℝ} (he : 0 ≤ eps) (x : Point) : (causalityFlat2D eps x x).1 = true := by
  unfold causalityFlat2D; simp [test, he]

theorem flat2D_eq (eps : ℝ) : causalityFlat2D eps = (⟨2, false, none⟩ : FlatSpacetime).causality eps := by
  unfold FlatSpacetime.causality; simp

/-- the loop fills row `p - 1` for every entry `p` -/
theorem permCoordsLoop_spec (s radius : ℝ) (n : ℕ) : ∀ (ps : List ℤ) (i : ℕ) (rows : List Point), rows.length = n → ps.Nodup →
    (∀ p ∈ ps, 1 ≤ p ∧ p ≤ n) →
    ∃ rows', permCoordsLoop s radius i ps rows = .ok rows' ∧ rows'.length = n ∧
      ∀ k : ℕ, k < n → rows'[k]? = if (k : ℤ) + 1 ∈ ps then some (gridPoint s radius k (i + ps.idxOf ((k : ℤ) + 1))) else rows[k]? := by
  intro ps
  induction ps with
  | nil => intro i rows hl _ _; exact ⟨rows, rfl, hl, fun k _ => by simp⟩
  | cons p ps ih =>
    intro i rows hl hnd hp
    obtain ⟨hp1, hp2⟩ := hp p (by simp)
    rw [List.nodup_cons] at hnd
    have hidx : npIndex rows.length (p - 1) = .ok (p - 1).toNat := by
      unfold npIndex; rw [if_pos (by omega)]
    obtain ⟨rows', e1, e2, e3⟩ := ih (i + 1) (rows.set (p - 1).toNat
      (point2 (((p : ℝ) - 0.5) * s + ((i : ℝ) + 0.5) * s - radius) (((p : ℝ) - 0.5) * s - ((i : ℝ) + 0.5) * s)))
      (by simpa using hl) hnd.2 (fun q hq => hp q (by simp [hq]))
    refine ⟨rows', ?_, e2, fun k hk => ?_⟩
    · rw [permCoordsLoop]
      rw [hidx]
      exact e1
    · rw [e3 k hk]
      by_cases hkp : (k : ℤ) + 1 = p
      · have : (k : ℤ) + 1 ∉ ps := by rw [hkp]; exact hnd.1
        rw [if_neg this, if_pos (by simp [hkp])]
        have hk2 : (p - 1).toNat = k := by omega
        rw [hk2, List.getElem?_set_self (by omega), hkp, List.idxOf_cons_self]
        congr 1
        unfold gridPoint
        have : (p : ℝ) = (k : ℝ) + 1 := by rw [← hkp]; push_cast; ring
        rw [this]
        congr 1 <;> push_cast <;> ring
      · have hk2 : (p - 1).toNat ≠ k := by omega
        rw [List.getElem?_set_ne hk2]
        by_cases hm : (k : ℤ) + 1 ∈ ps
        · rw [if_pos hm, if_pos (by simp [hm]), List.idxOf_cons_ne _ (fun h => hkp h.symm)]
          congr 2; omega
        · rw [if_neg hm, if_neg (by simp [hm, hkp])]

theorem permutationCoords_spec {P : List ℤ} (hP : IsPermutation P) (junk : ℕ → Point) (radius : ℝ) :
    permutationCoords junk P radius =
      .ok ((List.range P.length).map fun (k : ℕ) => gridPoint (radius / P.length) radius k (P.idxOf ((k : ℤ) + 1))) := by
  unfold permutationCoords
  dsimp only
  by_cases h0 : P.length > 0
  · rw [if_pos h0]
    obtain ⟨rows', e1, e2, e3⟩ := permCoordsLoop_spec (radius / P.length) radius P.length P 0 ((List.range P.length).map junk) (by simp)
      hP.nodup (fun p hp => by
        have := hP.mem_iff.1 hp
        rw [List.mem_map] at this
        obtain ⟨k, hk, rfl⟩ := this
        rw [List.mem_range] at hk
        omega)
    rw [e1]
    congr 1
    apply List.ext_getElem?
    intro k
    by_cases hk : k < P.length
    · rw [e3 k hk, if_pos (hP.mem k hk)]
      simp [hk]
    · rw [List.getElem?_eq_none (by omega), List.getElem?_eq_none (by simp; omega)]
  · rw [if_neg h0]
    have : P.length = 0 := by omega
    simp [this]

/-- **C45.** For every permutation `P` of 1..n and every radius with cell diagonal `2 * radius / n` larger than the tolerance:
`EmbeddedCauset.FromPermutation(P, labelFormat, radius)` returns a causet of n new events, number `u` labelled with `u`, all in the diamond of this
radius, with exactly the causal order of `Causet.FromPermutation(P)` (see `C10_fromPermutation`); it is linked, and link memory exact. -/
theorem C45_fromPermutation (eps : ℝ) (he : 0 ≤ eps) (it : Iter) (junk : ℕ → Point) (P : List ℤ) (hP : IsPermutation P)
    (fmt : Option (ℕ → String)) (radius : ℝ) (hr : 0 < radius) (hcell : eps * P.length < 2 * radius)
    (w : World Point) (v : w.heap.Valid) (lx : w.heap.LinksExact) :
    ∃ (ids : Fin P.length → EId) (w' : World Point),
      embFromPermutation eps it junk P fmt radius w = (.ok (Finset.univ.image ids), w') ∧
      w.heap.Realises w'.heap ids (fun u w => u < w ∧ StandsBefore P ((u : ℕ) + 1) ((w : ℕ) + 1)) ∧
      w'.heap.LinksExact ∧ (∀ u, w'.heap.hasBeenLinked (ids u) = true) ∧
      (∀ u, w'.heap.label (ids u) = some (mkLabel fmt ((u : ℕ) + 1))) ∧
      (∀ u, ∃ x, w'.crd (ids u) = some x ∧ InDiamond radius x) := by
  set n := P.length with hn
  set s := radius / n with hs
  set rows : List Point := (List.range n).map fun (k : ℕ) => gridPoint s radius k (P.idxOf ((k : ℤ) + 1)) with hrows
  have hrl : rows.length = n := by simp [hrows]
  have hrk : ∀ k (hk : k < rows.length), rows[k] = gridPoint s radius k (P.idxOf ((k : ℤ) + 1)) := fun k hk => by simp [hrows]
  set c := causalityFlat2D eps with hc
  -- the causality of the points
  have hidx : ∀ k l, k < n → l < n → k ≠ l → P.idxOf ((k : ℤ) + 1) ≠ P.idxOf ((l : ℤ) + 1) := by
    intro k l hk hl hkl h
    have := (List.idxOf_inj (hP.mem k hk)).1 h
    omega
  have hcell' : ∀ k, k < n → eps < 2 * s := fun k hk => by
    have hn0 : (0 : ℝ) < n := by exact_mod_cast (by omega : 0 < n)
    rw [hs, ← mul_div_assoc, lt_div_iff₀ hn0]
    exact hcell
  have hcau : ∀ k l, k < n → l < n → k ≠ l →
      ((c (gridPoint s radius k (P.idxOf ((k : ℤ) + 1))) (gridPoint s radius l (P.idxOf ((l : ℤ) + 1)))).1 = true ↔
        k < l ∧ P.idxOf ((k : ℤ) + 1) < P.idxOf ((l : ℤ) + 1)) := fun k l hk hl hkl =>
    grid_causal he (hcell' k hk) hkl (hidx k l hk hl hkl)
  let S : Set Point := {x | ∃ k < n, x = gridPoint s radius k (P.idxOf ((k : ℤ) + 1))}
  have hord : IsCausalOrder c S := by
    constructor
    · rintro x ⟨k, hk, rfl⟩ y ⟨l, hl, rfl⟩ z ⟨m, hm, rfl⟩ h1 h2
      by_cases hkl : k = l
      · subst hkl; exact h2
      by_cases hlm : l = m
      · subst hlm; exact h1
      rw [hcau k l hk hl hkl] at h1
      rw [hcau l m hl hm hlm] at h2
      by_cases hkm : k = m
      · omega
      · rw [hcau k m hk hm hkm]; omega
    · intro x _ y _
      rw [hc, flat2D_eq]
      exact (C43_directions eps _ x y).2.2.2
  have hcreate := C42_create c S hord it ∅ rows fmt w v lx (by simp) (by intro x hx; simp at hx) (by simp) (by
    intro x hx
    simp only [hrows, List.mem_map, List.mem_range] at hx
    obtain ⟨k, hk, rfl⟩ := hx
    exact ⟨k, hk, rfl⟩)
  obtain ⟨ids, k1, k2, k3, k4, k5, k6, k7⟩ := C46_create c it ∅ rows fmt true w (by simp) (by simp)
  set r := create c it ∅ rows fmt true w with hr'
  obtain ⟨q1, q2, q3, q4, q5, q6, q7, q8, q9⟩ := hcreate
  have hlen : ids.length = n := by rw [k1, hrl]
  have hset : r.1 = Finset.univ.image (fun u : Fin n => ids[(u : ℕ)]'(by omega)) := by
    rw [k4, Finset.empty_union]
    ext x
    simp only [List.mem_toFinset, Finset.mem_image, Finset.mem_univ, true_and]
    constructor
    · intro hx
      obtain ⟨k, hk, rfl⟩ := List.mem_iff_getElem.1 hx
      exact ⟨⟨k, by omega⟩, rfl⟩
    · rintro ⟨u, rfl⟩; exact List.getElem_mem _
  have hcrd : ∀ u : Fin n, r.2.2.2.crd (ids[(u : ℕ)]'(by omega)) = some (gridPoint s radius u (P.idxOf (((u : ℕ) : ℤ) + 1))) := fun u => by
    have hu := u.2
    rw [(k6 u _ (List.getElem?_eq_getElem (by omega))).2, List.getElem?_eq_getElem (by omega), hrk]
  have hmem : ∀ u : Fin n, ids[(u : ℕ)]'(by omega) ∈ r.1 := fun u => by
    rw [hset]; exact Finset.mem_image_of_mem _ (Finset.mem_univ u)
  have hinj : Function.Injective (fun u : Fin n => ids[(u : ℕ)]'(by omega)) := fun u u' h =>
    Fin.ext ((List.Nodup.getElem_inj_iff k2).1 h)
  have hdist : ∀ a ∈ r.1, ∀ b ∈ r.1, ∀ x y, r.2.2.2.crd a = some x → r.2.2.2.crd b = some y → a ≠ b →
      ¬ ((c x y).1 = true ∧ (c y x).1 = true) := by
    intro a ha b hb x y hx hy hab
    rw [hset, Finset.mem_image] at ha hb
    obtain ⟨u, -, rfl⟩ := ha
    obtain ⟨u', -, rfl⟩ := hb
    rw [hcrd u, Option.some.injEq] at hx
    rw [hcrd u', Option.some.injEq] at hy
    have hne : (u : ℕ) ≠ u' := fun h => hab (by simp [h])
    rw [← hx, ← hy, hcau u u' u.2 u'.2 hne, hcau u' u u'.2 u.2 hne.symm]
    omega
  have hold : ∀ a, w.heap.Exists a → a ∉ r.1 := fun a ha hmem => by
    rw [k4, Finset.empty_union, List.mem_toFinset] at hmem
    exact (k5 a hmem).1 ha
  refine ⟨fun u => ids[(u : ℕ)]'(by omega), r.2.2.2, ?_, ⟨q2, hinj, fun u => (k5 _ (List.getElem_mem _)).1, fun u => q4 _ (hmem u),
    fun u u' => ?_, fun a b hab => ?_, fun a b ha hb => q9 a b (Or.inl (hold a ha)), fun a ha => (k7 a ha).1, fun a ha => (k7 a ha).2.1⟩,
    q3, fun u => q6 _ (hmem u), fun u => ?_, fun u => ⟨_, hcrd u, ?_⟩⟩
  · unfold embFromPermutation
    have h0 : test (radius ≤ 0) = false := by simp [test, hr]
    rw [h0, permutationCoords_spec hP, ← hs, ← hrows]
    simp only [Bool.false_eq_true, if_false, ← hc, ← hr', q1]
    rw [hset]
  · rw [q8 hdist _ (hmem u) _ (hmem u') _ _ (hcrd u) (hcrd u')]
    by_cases hne : (u : ℕ) = u'
    · have : u = u' := Fin.ext hne
      subst this
      constructor
      · rintro ⟨h1, -⟩; exact absurd rfl h1
      · rintro ⟨h1, -⟩; exact absurd h1 (lt_irrefl _)
    · rw [hcau u u' u.2 u'.2 hne, standsBefore_iff hP.nodup (hP.mem u u.2) (hP.mem u' u'.2)]
      constructor
      · rintro ⟨-, h1, h2⟩; exact ⟨h1, h2⟩
      · rintro ⟨h1, h2⟩; exact ⟨fun h => hne (by have := hinj h; rw [this]), h1, h2⟩
  · by_cases hin : a ∈ r.1 ∧ b ∈ r.1
    · right
      rw [hset, Finset.mem_image, Finset.mem_image] at hin
      obtain ⟨⟨u, -, hu⟩, ⟨u', -, hu'⟩⟩ := hin
      exact ⟨u, u', hu.symm, hu'.symm⟩
    · left
      exact (q9 a b (by tauto)).1 hab
  · have hu := u.2
    have := (k6 u _ (List.getElem?_eq_getElem (by omega))).1
    rw [this]
    congr 2; simp; omega
  · have hu := u.2
    have hn0 : (0 : ℝ) < n := by exact_mod_cast (by omega : 0 < n)
    have hsn : s * n = radius := by rw [hs]; field_simp
    have hspos : 0 < s := div_pos hr hn0
    have hj : P.idxOf (((u : ℕ) : ℤ) + 1) < n := List.idxOf_lt_length_iff.2 (hP.mem u u.2)
    have b1 : (((u : ℕ) : ℝ) + 1) ≤ n := by exact_mod_cast hu
    have b2 : ((P.idxOf (((u : ℕ) : ℤ) + 1) : ℕ) : ℝ) + 1 ≤ n := by exact_mod_cast hj
    have b3 : (0 : ℝ) ≤ ((u : ℕ) : ℝ) := Nat.cast_nonneg _
    have b4 : (0 : ℝ) ≤ ((P.idxOf (((u : ℕ) : ℤ) + 1) : ℕ) : ℝ) := Nat.cast_nonneg _
    set a : ℝ := ((u : ℕ) : ℝ)
    set b : ℝ := ((P.idxOf (((u : ℕ) : ℤ) + 1) : ℕ) : ℝ)
    have hU : 0 ≤ (a + 0.5) * s ∧ (a + 0.5) * s ≤ radius := by
      constructor
      · apply mul_nonneg <;> linarith
      · rw [← hsn, mul_comm]; exact mul_le_mul_of_nonneg_left (by linarith) hspos.le
    have hV : 0 ≤ (b + 0.5) * s ∧ (b + 0.5) * s ≤ radius := by
      constructor
      · apply mul_nonneg <;> linarith
      · rw [← hsn, mul_comm]; exact mul_le_mul_of_nonneg_left (by linarith) hspos.le
    unfold InDiamond gridPoint point2
    simp only [if_true, one_ne_zero, if_false]
    have h0 : |(a + 0.5) * s + (b + 0.5) * s - radius| + |(a + 0.5) * s - (b + 0.5) * s| ≤ radius := by
      rcases abs_cases ((a + 0.5) * s + (b + 0.5) * s - radius) with h | h <;> rcases abs_cases ((a + 0.5) * s - (b + 0.5) * s) with h' | h' <;>
        rw [h.1, h'.1] <;> linarith [hU.1, hU.2, hV.1, hV.2]
    exact h0

/-- C45: the hypotheses hold for the default radius and tolerance and a permutation of length 4 -/
example : IsPermutation [2, 4, 1, 3] ∧ (0 : ℝ) ≤ causalityEps ∧ causalityEps * ([2, 4, 1, 3] : List ℤ).length < 2 * 1 := by
  refine ⟨by decide, ?_, ?_⟩ <;> unfold causalityEps <;> norm_num

/-- **C45, the tolerance matters.** With a radius below half the tolerance, the two unrelated events of `FromPermutation([2, 1])` become
causally related. -/
theorem C45_needs_cell_size (eps radius : ℝ) (hr : 0 < radius) (hsmall : radius ≤ eps) (it : Iter) (junk : ℕ → Point)
    (w : World Point) (v : w.heap.Valid) (lx : w.heap.LinksExact) :
    let w' := (embFromPermutation eps it junk [2, 1] none radius w).2
    w'.heap.Lt w.heap.next (w.heap.next + 1) ∨ w'.heap.Lt (w.heap.next + 1) w.heap.next := by
  intro w'
  have hP : IsPermutation [2, 1] := by decide
  set rows : List Point := [gridPoint (radius / 2) radius 0 1, gridPoint (radius / 2) radius 1 0] with hrows
  have hco : permutationCoords junk [2, 1] radius = .ok rows := by
    rw [permutationCoords_spec hP]
    simp [hrows, List.range_succ]
  set c := causalityFlat2D eps
  obtain ⟨w1, e1, v1, lx1, hex1, -, hcl1, hLt, g3, g4⟩ := create_stage c it ∅ rows none w v lx (by simp) (by intro x hx; simp at hx)
  set r := create c it ∅ rows none true w with hr'
  have hw' : w' = r.2.2.2 := by
    show (embFromPermutation eps it junk [2, 1] none radius w).2 = _
    unfold embFromPermutation
    have h0 : test (radius ≤ 0) = false := by simp [test, hr]
    rw [h0, hco]
    simp only [Bool.false_eq_true, if_false]
    rw [← hr']
    cases r.2.2.1 <;> rfl
  let pos : EId → Point := fun e => if e = w.heap.next then gridPoint (radius / 2) radius 0 1 else gridPoint (radius / 2) radius 1 0
  have hset : (∅ : Finset ℕ) ∪ (List.range' w.heap.next rows.length).toFinset = {w.heap.next, w.heap.next + 1} := by
    ext x; simp [hrows, List.mem_range'_1]; omega
  have hpos : ∀ e ∈ (∅ : Finset ℕ) ∪ (List.range' w.heap.next rows.length).toFinset, w1.crd e = some (pos e) := by
    rw [hset]
    intro e he
    simp only [Finset.mem_insert, Finset.mem_singleton] at he
    rcases he with rfl | rfl
    · simpa [pos, hrows] using g3 0 (by simp [hrows])
    · simpa [pos, hrows] using g3 1 (by simp [hrows])
  obtain ⟨L, k1, k2, k3, -⟩ := C42_relate c it _ true w1 pos hpos
  have hr1 : r.2.2.2 = (relate c it (∅ ∪ (List.range' w.heap.next rows.length).toFinset) true w1).2 := by rw [e1]
  rw [hset] at k2 k3 hr1
  rw [hw', hr1]
  rw [k3 _ _ (by simp), k3 _ _ (by simp)]
  have hcau : (c (gridPoint (radius / 2) radius 0 1) (gridPoint (radius / 2) radius 1 0)).1 = true ∧
      (c (gridPoint (radius / 2) radius 1 0) (gridPoint (radius / 2) radius 0 1)).1 = true := by
    constructor <;> simp only [c, causalityFlat2D, test, Bool.and_eq_true, decide_eq_true_eq, ge_iff_le]
    · obtain ⟨f0, f1⟩ := gridPoint_sub (radius / 2) radius 0 1 1 0
      rw [f0, f1]
      norm_num
      rw [abs_of_pos (by linarith : 0 < radius / 2)]; linarith
    · obtain ⟨f0, f1⟩ := gridPoint_sub (radius / 2) radius 1 0 0 1
      rw [f0, f1]
      norm_num
      rw [abs_of_pos (by linarith : 0 < radius / 2)]; linarith
  have p0 : pos w.heap.next = gridPoint (radius / 2) radius 0 1 := by simp [pos, hrows]
  have p1 : pos (w.heap.next + 1) = gridPoint (radius / 2) radius 1 0 := by simp [pos, hrows]
  rcases before_total k1 (a := w.heap.next) (b := w.heap.next + 1) ((k2 _).2 (by simp)) ((k2 _).2 (by simp)) (by omega) with hb | hb
  · exact Or.inl (Or.inl ⟨hb, by rw [p0, p1]; exact hcau.1⟩)
  · exact Or.inr (Or.inl ⟨hb, by rw [p0, p1]; exact hcau.2⟩)

end Causets
