import Verif.Model.Diagram
import Verif.Props.EmbPermutation

/-! # C86 — Hasse diagrams of permutations (`plotDiagram`) -/

namespace Causets

open Heap

/-! ## Specification -/

/-- **Specification.** The position with the light-cone coordinates `(a, b)` (integers from 0 to `n - 1`) in the diamond of radius 1: the time increases with both, the space coordinate is
their difference. -/
noncomputable def cellPosition (n a b : ℕ) : Point := fun i =>
  if i = 0 then ((a : ℝ) + b + 1) / n - 1 else if i = 1 then ((a : ℝ) - b) / n else 0

/-! ## Proofs -/

theorem gridPoint_cell (n a b : ℕ) : gridPoint (1 / n) 1 a b = cellPosition n a b := by
  unfold gridPoint cellPosition point2
  funext i
  split
  · ring
  · split
    · ring
    · rfl

theorem cell_point2 (n a b : ℕ) : point2 (cellPosition n a b 0) (cellPosition n a b 1) = cellPosition n a b := by
  funext i
  unfold point2 cellPosition
  by_cases h0 : i = 0
  · simp [h0]
  · by_cases h1 : i = 1 <;> simp [h0, h1]

theorem positionLoop_ok : ∀ (E : List EId) (C : List Point) (pos : EId → Option Point), C.length = E.length → E.Nodup →
    ∃ pos', positionLoop E C pos = .ok pos' ∧ (∀ e ∉ E, pos' e = pos e) ∧
      ∀ (i : ℕ) (e : EId) (c : Point), E[i]? = some e → C[i]? = some c → pos' e = some (point2 (c 0) (c 1)) := by
  intro E
  induction E with
  | nil => intro C pos _ _; exact ⟨pos, rfl, fun _ _ => rfl, fun i e c h => by simp at h⟩
  | cons a E ih =>
    intro C pos hlen hnd
    cases C with
    | nil => simp at hlen
    | cons c C =>
      obtain ⟨ha, hnd'⟩ := List.nodup_cons.1 hnd
      obtain ⟨pos', h1, h2, h3⟩ := ih C (fun b => if b = a then some (point2 (c 0) (c 1)) else pos b) (by simpa using hlen) hnd'
      refine ⟨pos', ?_, ?_, ?_⟩
      · simpa [positionLoop, setPosition] using h1
      · intro e he
        simp only [List.mem_cons, not_or] at he
        rw [h2 e he.2]; simp [he.1]
      · intro i e c' he hc
        cases i with
        | zero =>
          simp at he hc; subst he; subst hc
          rw [h2 a ha]; simp
        | succ i => exact h3 i e c' (by simpa using he) (by simpa using hc)

/-- **C86, positions.** For a permutation of the length of the list of (different) events, the `i`-th event (from 0) is placed at the light-cone coordinates `i` and the place of `i + 1` in
the permutation, other positions are kept, and the diagram is the plot of the events at these positions. -/
theorem C86_positions {γ : Type} (it : Iter) (eps : ℝ) (g dc : Scheme) (geomP geomF : Point → ℝ → Except Err (Option γ)) (junk : ℕ → Point)
    (E : List EId) (hE : E.Nodup) (P : List ℤ) (hP : IsPermutation P) (hlen : P.length = E.length) (a : PlotArgs) (time : PlotTime) (pos : EId → Option Point) (h : Heap) :
    ∃ pos' : EId → Option Point,
      (let r := (plotCall it eps g dc geomP geomF (getPosition pos') (.list E) a time).run h
       (plotDiagram it eps g dc geomP geomF junk E P a time pos).run h = ((r.1, pos'), r.2)) ∧
      (∀ e ∉ E, pos' e = pos e) ∧
      ∀ (i : ℕ) (e : EId), E[i]? = some e → getPosition pos' e = cellPosition E.length i (P.idxOf ((i : ℤ) + 1)) := by
  have hC := permutationCoords_spec hP junk 1
  set C : List Point := (List.range P.length).map fun (k : ℕ) => gridPoint (1 / P.length) 1 k (P.idxOf ((k : ℤ) + 1)) with hCd
  obtain ⟨pos', h1, h2, h3⟩ := positionLoop_ok E C pos (by simp [hCd, hlen]) hE
  refine ⟨pos', ?_, h2, ?_⟩
  · dsimp only
    unfold plotDiagram
    simp only [hlen, if_true, hC, h1]
    rfl
  · intro i e he
    have hi : i < P.length := by rw [hlen]; exact (List.getElem?_eq_some_iff.1 he).1
    have := h3 i e (gridPoint (1 / P.length) 1 i (P.idxOf ((i : ℤ) + 1))) he (by rw [hCd, List.getElem?_map, List.getElem?_range hi]; rfl)
    unfold getPosition
    rw [this, gridPoint_cell, cell_point2, hlen]; rfl

/-- **C86, other lengths.** Without a permutation of this length, the positions are those the events have; events without a position are at the origin. -/
theorem C86_other_length {γ : Type} (it : Iter) (eps : ℝ) (g dc : Scheme) (geomP geomF : Point → ℝ → Except Err (Option γ)) (junk : ℕ → Point)
    (E : List EId) (P : List ℤ) (hlen : P.length ≠ E.length) (a : PlotArgs) (time : PlotTime) (pos : EId → Option Point) (h : Heap) :
    let r := (plotCall it eps g dc geomP geomF (getPosition pos) (.list E) a time).run h
    (plotDiagram it eps g dc geomP geomF junk E P a time pos).run h = ((r.1, pos), r.2) ∧
    (∀ e p, pos e = some p → getPosition pos e = p) ∧ ∀ e, pos e = none → getPosition pos e 0 = 0 ∧ getPosition pos e 1 = 0 := by
  dsimp only
  refine ⟨?_, fun e p hp => by simp [getPosition, hp], fun e he => by simp [getPosition, he, point2]⟩
  unfold plotDiagram
  simp only [hlen, if_false]
  rfl

theorem permCoordsLoop_error (s radius : ℝ) : ∀ (ps : List ℤ) (i : ℕ) (rows : List Point), (∃ p ∈ ps, p ≤ -(rows.length : ℤ) ∨ (rows.length : ℤ) < p) →
    permCoordsLoop s radius i ps rows = .error .indexError := by
  intro ps
  induction ps with
  | nil => intro i rows h; obtain ⟨p, hp, -⟩ := h; simp at hp
  | cons q ps ih =>
    intro i rows h
    unfold permCoordsLoop
    dsimp only
    by_cases hq : q ≤ -(rows.length : ℤ) ∨ (rows.length : ℤ) < q
    · have : npIndex rows.length (q - 1) = .error .indexError := by
        unfold npIndex; rw [if_neg (by omega), if_neg (by omega)]
      rw [this]
    · obtain ⟨p, hp, hp'⟩ := h
      rcases List.mem_cons.1 hp with rfl | hp
      · exact absurd hp' hq
      · have hall : ∀ j, permCoordsLoop s radius (i + 1) ps (rows.set j (point2 (((q : ℝ) - 0.5) * s + ((i : ℝ) + 0.5) * s - radius) (((q : ℝ) - 0.5) * s - ((i : ℝ) + 0.5) * s))) =
            .error .indexError := fun j => ih (i + 1) _ ⟨p, hp, by rw [List.length_set]; exact hp'⟩
        cases hx : npIndex rows.length (q - 1) with
        | error x =>
          unfold npIndex at hx
          split_ifs at hx <;> simp at hx
          subst hx; rfl
        | ok j => exact hall j

/-- **C86, numbers out of range.** If an entry is too large or too small, IndexError is raised and no position is changed. -/
theorem C86_out_of_range {γ : Type} (it : Iter) (eps : ℝ) (g dc : Scheme) (geomP geomF : Point → ℝ → Except Err (Option γ)) (junk : ℕ → Point)
    (E : List EId) (P : List ℤ) (hlen : P.length = E.length) (hP : ∃ p ∈ P, p ≤ -(E.length : ℤ) ∨ (E.length : ℤ) < p) (a : PlotArgs) (time : PlotTime) (pos : EId → Option Point)
    (h : Heap) : (plotDiagram it eps g dc geomP geomF junk E P a time pos).run h = ((.error .indexError, pos), h) := by
  have hpos : P.length > 0 := by obtain ⟨p, hp, -⟩ := hP; exact List.length_pos_of_mem hp
  unfold plotDiagram permutationCoords
  simp only [hlen, if_true]
  rw [if_pos (by omega), permCoordsLoop_error _ _ P 0 _ (by simpa [hlen] using hP)]
  rfl

/-- **C86, order.** Two positions with different light-cone coordinates are causally related in flat spacetime exactly if both light-cone coordinates increase (for tolerances smaller than
a cell). -/
theorem C86_order {eps : ℝ} (he : 0 ≤ eps) {n : ℕ} (hn : eps * n < 2) {a b a' b' : ℕ} (ha : a ≠ a') (hb : b ≠ b') (hpos : 0 < n) :
    (causalityFlat2D eps (cellPosition n a b) (cellPosition n a' b')).1 = true ↔ a < a' ∧ b < b' := by
  rw [← gridPoint_cell, ← gridPoint_cell]
  refine grid_causal he ?_ ha hb
  have : (0 : ℝ) < n := by exact_mod_cast hpos
  rw [mul_one_div, lt_div_iff₀ this]
  exact hn

/-- **C86, Hasse diagram.** If the events are ordered as the permutation says, later events are placed higher. -/
theorem C86_hasse (h : Heap) (E : List EId) (P : List ℤ) (pos : EId → Option Point)
    (hpos : ∀ (i : ℕ) (e : EId), E[i]? = some e → getPosition pos e = cellPosition E.length i (P.idxOf ((i : ℤ) + 1)))
    (hord : ∀ (i j : ℕ) (e e' : EId), E[i]? = some e → E[j]? = some e' → h.Lt e e' → i < j ∧ P.idxOf ((i : ℤ) + 1) < P.idxOf ((j : ℤ) + 1)) :
    ∀ e ∈ E, ∀ e' ∈ E, h.Lt e e' → getPosition pos e 0 < getPosition pos e' 0 := by
  intro e he e' he' hlt
  obtain ⟨i, hi⟩ := List.mem_iff_getElem?.1 he
  obtain ⟨j, hj⟩ := List.mem_iff_getElem?.1 he'
  obtain ⟨h1, h2⟩ := hord i j e e' hi hj hlt
  rw [hpos i e hi, hpos j e' hj]
  have hn : (0 : ℝ) < E.length := by exact_mod_cast List.length_pos_of_mem he
  simp only [cellPosition, if_true]
  have : ((i : ℝ) + (P.idxOf ((i : ℤ) + 1) : ℕ) + 1) / E.length < ((j : ℝ) + (P.idxOf ((j : ℤ) + 1) : ℕ) + 1) / E.length := by
    apply div_lt_div_of_pos_right _ hn
    have a1 : (i : ℝ) < j := by exact_mod_cast h1
    have a2 : ((P.idxOf ((i : ℤ) + 1) : ℕ) : ℝ) < (P.idxOf ((j : ℤ) + 1) : ℕ) := by exact_mod_cast h2
    linarith
  linarith

/-- **C86, refuted as documented.** The documentation says that the `i`-th event has the coordinates `(i, permutation[i])`.  For the permutation 2, 3, 1 (of any three events) the first
event is placed at (0, 2) instead of (0, 1), and the second event is not placed above the first one. -/
theorem C86_documented_refuted {γ : Type} (it : Iter) (eps : ℝ) (g dc : Scheme) (geomP geomF : Point → ℝ → Except Err (Option γ)) (junk : ℕ → Point)
    (e0 e1 e2 : EId) (hE : [e0, e1, e2].Nodup) (a : PlotArgs) (time : PlotTime) (pos : EId → Option Point) (h : Heap) :
    let pos' := ((plotDiagram it eps g dc geomP geomF junk [e0, e1, e2] [2, 3, 1] a time pos).run h).1.2
    getPosition pos' e0 = cellPosition 3 0 2 ∧ getPosition pos' e0 ≠ cellPosition 3 0 1 ∧ getPosition pos' e1 0 < getPosition pos' e0 0 := by
  obtain ⟨pos', h1, -, h3⟩ := C86_positions it eps g dc geomP geomF junk [e0, e1, e2] hE [2, 3, 1] (by decide) rfl a time pos h
  dsimp only at h1 ⊢
  rw [h1]
  dsimp only
  have q0 := h3 0 e0 rfl
  have q1 := h3 1 e1 rfl
  have i0 : ([2, 3, 1] : List ℤ).idxOf (((0 : ℕ) : ℤ) + 1) = 2 := by decide
  have i1 : ([2, 3, 1] : List ℤ).idxOf (((1 : ℕ) : ℤ) + 1) = 0 := by decide
  rw [i0] at q0
  rw [i1] at q1
  simp only [List.length_cons, List.length_nil, Nat.zero_add, Nat.reduceAdd] at q0 q1
  refine ⟨q0, ?_, ?_⟩
  · rw [q0]
    intro e
    have := congrFun e 1
    norm_num [cellPosition] at this
  · rw [q0, q1]
    norm_num [cellPosition]

/-! ## The hypotheses can be met -/

example : IsPermutation [2, 3, 1] ∧ ([2, 3, 1] : List ℤ).length = ([0, 1, 2] : List EId).length ∧ ([0, 1, 2] : List EId).Nodup := by decide

end Causets
