import Verif.Props.RowsRelate
import Verif.Props.MergeLink

/-!
# C117: coordinate rows of any length — events without coordinates, and concrete cases
-/

namespace Causets

open Heap

theorem entriesRead_pos (M : SpacetimeObj) (hM : M.Constructed) : 1 ≤ M.entriesRead := by
  have := hM.dim_pos
  cases M <;> simp only [SpacetimeObj.entriesRead, SpacetimeObj.dim] at * <;> try omega
  split <;> omega

/-- an event with an empty row cannot be compared with anything inside the horizon -/
theorem rows_empty (eps : ℝ) (M : SpacetimeObj) (hM : M.Constructed) (x y : Row) (hb : ¬ M.BeyondHorizon x y) (h : x = [] ∨ y = []) :
    M.causalityRows eps x y = .error .indexError := by
  have := entriesRead_pos M hM
  refine (C117_errors eps M hM x y).1.2 ⟨hb, ?_⟩
  rcases h with rfl | rfl
  · left; rw [List.length_nil]; omega
  · right; rw [List.length_nil]; omega

/-- **C117, an event without coordinates.** `CausetEvent()` has the coordinates `[]` and counts as embedded (C61).  If a causet with at least two events
has such an event, and all other events have exactly `Dim` coordinates (in de Sitter spacetime: inside the horizon), then `relate` raises IndexError,
whatever the iteration order. -/
theorem C117_unembedded (eps : ℝ) (M : SpacetimeObj) (hM : M.Constructed) (it : Iter) (C : Finset EId) (link : Bool) (w : World Row) (pos : EId → Row)
    (hpos : ∀ e ∈ C, w.crd e = some (pos e)) (hlen : ∀ e ∈ C, pos e = [] ∨ (pos e).length = M.dim)
    (hin : ∀ a ∈ C, ∀ b ∈ C, ¬ M.BeyondHorizon (pos a) (pos b)) {a b : EId} (ha : a ∈ C) (hb : b ∈ C) (hab : a ≠ b) (h : pos a = []) :
    (relateE (M.causalityRows eps) it C link w).1 = .error .indexError := by
  obtain ⟨⟨a', ha', b', hb', hab', e, he, hres⟩, -⟩ := C117_relate_raises (M.causalityRows eps) (fun x y e => rows_error_symm eps M hM x y e) it C link w pos
    hpos ha hb hab (rows_empty eps M hM _ _ (hin a ha b hb) (Or.inl h))
  rw [hres]
  rcases hlen a' ha' with h1 | h1
  · rw [rows_empty eps M hM _ _ (hin a' ha' b' hb') (Or.inl h1)] at he; rw [Except.error.inj he]
  · rcases hlen b' hb' with h2 | h2
    · rw [rows_empty eps M hM _ _ (hin a' ha' b' hb') (Or.inr h2)] at he; rw [Except.error.inj he]
    · rw [C117_fit eps M hM _ _ h1 h2] at he; cases he

/-- an iteration order that starts with `e` -/
def Iter.beginAt (it : Iter) (e : EId) : Iter where
  ord k s := if e ∈ s then e :: it.ord k (s.erase e) else it.ord k s
  nodup k s := by
    split
    · exact List.nodup_cons.2 ⟨fun h => by simpa using (it.mem _ _ _).1 h, it.nodup _ _⟩
    · exact it.nodup _ _
  mem k s x := by
    split
    · rename_i h
      rw [List.mem_cons, it.mem, Finset.mem_erase]
      constructor
      · rintro (rfl | h') <;> [exact h; exact h'.2]
      · intro hx
        by_cases hxe : x = e
        · exact Or.inl hxe
        · exact Or.inr ⟨hxe, hx⟩
    · exact it.mem _ _ _

/-- **C117, refuted: a failed `relate` leaves the causet as it was.** For every causet with an event with empty coordinates (and another event inside the
horizon) there is an iteration order of the set of events such that `relate` raises IndexError and afterwards no two events of the causet are related,
whatever the order was before, while the links are still recorded. -/
theorem C117_lost_refuted (eps : ℝ) (M : SpacetimeObj) (hM : M.Constructed) (it : Iter) (C : Finset EId) (link : Bool) (w : World Row) (pos : EId → Row)
    (hpos : ∀ e ∈ C, w.crd e = some (pos e)) {a b : EId} (ha : a ∈ C) (hb : b ∈ C) (hab : a ≠ b) (h : pos a = [])
    (hin : ∀ e ∈ C, ¬ M.BeyondHorizon [] (pos e)) :
    ∃ it' : Iter, (relateE (M.causalityRows eps) it' C link w).1 = .error .indexError ∧
      (∀ x, ∀ y ∈ C, ¬ (relateE (M.causalityRows eps) it' C link w).2.heap.Lt x y) ∧
      (relateE (M.causalityRows eps) it' C link w).2.heap.lprec = w.heap.lprec ∧
      (relateE (M.causalityRows eps) it' C link w).2.heap.lsucc = w.heap.lsucc := by
  refine ⟨it.beginAt a, ?_⟩
  have ho : (it.beginAt a).ord [221] C = a :: it.ord [221] (C.erase a) := by simp [Iter.beginAt, ha]
  obtain ⟨k1, k2, k3, k4, k5, k6⟩ := relateClear_spec ((it.beginAt a).ord [218] C) w.heap
  obtain ⟨f, fs, hfs⟩ : ∃ f fs, it.ord [221] (C.erase a) = f :: fs := by
    cases hq : it.ord [221] (C.erase a) with
    | nil =>
      have : b ∈ it.ord [221] (C.erase a) := (it.mem _ _ _).2 (Finset.mem_erase.2 ⟨hab.symm, hb⟩)
      rw [hq] at this; simp at this
    | cons f fs => exact ⟨f, fs, rfl⟩
  have hf : f ∈ C := Finset.mem_of_mem_erase ((it.mem _ _ _).1 (by rw [hfs]; simp : f ∈ it.ord [221] (C.erase a)))
  have hE : relateE (M.causalityRows eps) (it.beginAt a) C link w =
      (.error .indexError, { w with heap := relateClear ((it.beginAt a).ord [218] C) w.heap }) := by
    unfold relateE
    rw [ho, hfs]
    unfold relateRowsE relateRowE
    rw [hpos a ha, hpos f hf, h]
    dsimp only
    rw [rows_empty eps M hM _ _ (hin f hf) (Or.inl rfl)]
  rw [hE]
  refine ⟨rfl, fun x y hy hlt => ?_, k3, k4⟩
  have hx : x ∈ (relateClear ((it.beginAt a).ord [218] C) w.heap).prec y := by simpa [Heap.Lt, Heap.lt] using hlt
  rw [k5, if_pos (((it.beginAt a).mem _ _ _).2 hy)] at hx
  simp at hx

/-! ## Concrete cases -/

/-- three-dimensional Minkowski spacetime -/
def flat3 : FlatSpacetime := ⟨3, false, none⟩

theorem flat3_constructed : (SpacetimeObj.flat flat3).Constructed := ⟨3, .float 0, by simp [FlatSpacetime.init, flat3]⟩

/-- the chain of two events `0 < 1` and the event `2`, which has no coordinates -/
noncomputable def exRows : World Row where
  heap := exChain2And1
  crd e := if e = 0 then some [0, 0, 0] else if e = 1 then some [1, 0, 0] else some []

theorem flat3_value (x y : Row) (hx : x ≠ []) (hy : y ≠ []) (h : SameShape x y) :
    SpacetimeObj.causalityRows 0 (.flat flat3) x y = .ok (causalityFlat 0 (commonLength x y) (rowPoint (stretch (commonLength x y) x))
      (rowPoint (stretch (commonLength x y) y))) := C117_flat_values 0 flat3 (by decide) rfl x y hx hy h

/-- the cases: rows of 4 entries are accepted in three dimensions and compared as points of four-dimensional spacetime (and so are rows of 2 entries,
which are stretched), rows of 3 and 4 entries raise ValueError, one entry in two dimensions raises IndexError, and `relate` loses the order of
`exRows` -/
theorem C117_case :
    SpacetimeObj.causalityRows 0 (.flat flat3) [0, 0, 0, 0] [2, 1, 1, 1] = .ok (true, false) ∧
    SpacetimeObj.causalityRows 0 (.flat flat3) [0, 0, 0] [2, 1, 1, 1] = .error .valueError ∧
    SpacetimeObj.causalityRows 0 (.flat flat3) [0, 1] [2, 2, 2, 2] = .ok (true, false) ∧
    SpacetimeObj.causalityRows 0 (.flat flat3) [0, 1] [1, 2, 2, 2] = .ok (false, false) ∧
    SpacetimeObj.causalityRows 0 (.flat ⟨2, false, none⟩) [0] [1, 0] = .error .indexError ∧
    exRows.heap.Lt 0 1 ∧
    ∃ it : Iter, (relateE (SpacetimeObj.causalityRows 0 (.flat flat3)) it {0, 1, 2} true exRows).1 = .error .indexError ∧
      ¬ (relateE (SpacetimeObj.causalityRows 0 (.flat flat3)) it {0, 1, 2} true exRows).2.heap.Lt 0 1 := by
  refine ⟨?_, ?_, ?_, ?_, ?_, (exChain2And1_lt 0 1).2 ⟨rfl, rfl⟩, ?_⟩
  · rw [flat3_value [0, 0, 0, 0] [2, 1, 1, 1] (by simp) (by simp) (Or.inl rfl)]
    simp [commonLength, stretch, causalityFlat, spaceSq, rowPoint, test, Finset.sum_Ico_succ_top]
    norm_num
  · refine (C117_errors 0 _ flat3_constructed _ _).2.1.2 ⟨by simp [SpacetimeObj.BeyondHorizon], ?_, ?_, ?_, ?_⟩ <;>
      simp [SpacetimeObj.entriesRead, SpacetimeObj.WholeRows, SameShape, flat3]
  · rw [flat3_value _ _ (by simp) (by simp) (Or.inr (Or.inl rfl))]
    simp [commonLength, stretch, causalityFlat, spaceSq, rowPoint, test, Finset.sum_Ico_succ_top, List.replicate]
    norm_num
  · rw [flat3_value _ _ (by simp) (by simp) (Or.inr (Or.inl rfl))]
    simp [commonLength, stretch, causalityFlat, spaceSq, rowPoint, test, Finset.sum_Ico_succ_top, List.replicate]
    norm_num
  · refine (C117_errors 0 (.flat ⟨2, false, none⟩) ⟨2, .float 0, by simp [FlatSpacetime.init]⟩ _ _).1.2 ⟨by simp [SpacetimeObj.BeyondHorizon], ?_⟩
    simp [SpacetimeObj.entriesRead]
  · obtain ⟨it, h1, h2, -⟩ := C117_lost_refuted 0 (.flat flat3) flat3_constructed Iter.asc {0, 1, 2} true exRows
      (fun e => if e = 0 then [0, 0, 0] else if e = 1 then [1, 0, 0] else []) (by intro e he; fin_cases he <;> simp [exRows])
      (a := 2) (b := 0) (by decide) (by decide) (by decide) (by simp) (by simp [SpacetimeObj.BeyondHorizon])
    exact ⟨it, h1, h2 0 1 (by decide)⟩

end Causets
