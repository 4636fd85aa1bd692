import Verif.Model.Rows
import Verif.Props.EmbInit

/-!
# C117: coordinate rows of any length — the causality functions
-/

namespace Causets

open Heap

/-! ## Vocabulary -/

/-- how many entries of every row the causality function of a spacetime reads one by one -/
def SpacetimeObj.entriesRead : SpacetimeObj → ℕ
  | .base => 1
  | .flat M => if M.isPeriodic = true ∨ M.dim ≤ 2 then M.dim else 1
  | .deSitter _ _ => 1
  | .antiDeSitter _ _ => 1
  | .blackHole _ _ => 2

/-- the spacetimes whose causality function subtracts all the space coordinates at once -/
def SpacetimeObj.WholeRows : SpacetimeObj → Prop
  | .base => False
  | .flat M => M.isPeriodic = false ∧ 3 ≤ M.dim
  | .deSitter _ _ => True
  | .antiDeSitter _ _ => True
  | .blackHole _ _ => False

/-- rows whose space parts NumPy subtracts: equal lengths, or one of them with a single space coordinate -/
def SameShape (x y : Row) : Prop := x.length = y.length ∨ x.length = 2 ∨ y.length = 2

/-- in de Sitter spacetime one of the points is not inside the cosmological horizon -/
def SpacetimeObj.BeyondHorizon (M : SpacetimeObj) (x y : Row) : Prop := match M with
  | .deSitter _ a => a ^ 2 ≤ (x.tail.map (· ^ 2)).sum ∨ a ^ 2 ≤ (y.tail.map (· ^ 2)).sum
  | _ => False

/-- a row with a single space coordinate repeats it in every direction if it is compared with a row of `n` entries -/
def stretch (n : ℕ) (x : Row) : Row := if x.length = 2 then x.getD 0 0 :: List.replicate (n - 1) (x.getD 1 0) else x

/-- the number of entries after stretching -/
def commonLength (x y : Row) : ℕ := if x.length = 2 then y.length else x.length

/-! ## Auxiliary -/

theorem rowAt_ok {x : Row} {i : ℕ} (h : i < x.length) : rowAt x i = .ok (rowPoint x i) := by
  unfold rowAt rowPoint
  rw [List.getElem?_eq_getElem h, List.getD_eq_getElem?_getD, List.getElem?_eq_getElem h]
  rfl

theorem rowAt_err {x : Row} {i : ℕ} (h : ¬ i < x.length) : rowAt x i = .error .indexError := by
  unfold rowAt
  rw [List.getElem?_eq_none (by omega)]

theorem rowSq_zip : ∀ (y x : Row), y.length = x.length →
    rowSq (List.zipWith (· - ·) y x) = ∑ i ∈ Finset.range x.length, (y.getD i 0 - x.getD i 0) ^ 2
  | [], [], _ => by simp [rowSq]
  | [], _ :: _, h => by simp at h
  | _ :: _, [], h => by simp at h
  | b :: y, a :: x, h => by
    have ih := rowSq_zip y x (by simpa using h)
    unfold rowSq at ih ⊢
    rw [List.length_cons, Finset.sum_range_succ']
    simp only [List.zipWith_cons_cons, List.map_cons, List.sum_cons, List.getD_cons_succ, List.getD_cons_zero]
    rw [ih]
    ring

theorem sum_ico_shift (n : ℕ) (f : ℕ → ℝ) : ∑ i ∈ Finset.Ico 1 (n + 1), f i = ∑ i ∈ Finset.range n, f (i + 1) := by
  rw [Finset.sum_Ico_eq_sum_range]
  simp [add_comm]

theorem rowSq_tails (x y : Row) (h : x.length = y.length) (hx : x ≠ []) :
    rowSq (List.zipWith (· - ·) y.tail x.tail) = spaceSq x.length (rowPoint x) (rowPoint y) := by
  cases x with
  | nil => exact absurd rfl hx
  | cons a x =>
    cases y with
    | nil => simp at h
    | cons b y =>
      have h' : y.length = x.length := by simpa using h.symm
      rw [List.tail_cons, List.tail_cons, rowSq_zip _ _ h']
      unfold spaceSq
      rw [List.length_cons, sum_ico_shift]
      exact Finset.sum_congr rfl fun i _ => by simp [rowPoint]

theorem rowSq_tail (x : Row) (hx : x ≠ []) : rowSq x.tail = ∑ i ∈ Finset.Ico 1 x.length, (rowPoint x i) ^ 2 := by
  cases x with
  | nil => exact absurd rfl hx
  | cons a x =>
    rw [List.tail_cons, List.length_cons, sum_ico_shift]
    have := rowSq_zip x (List.replicate x.length 0) (by simp)
    have e : List.zipWith (· - ·) x (List.replicate x.length (0 : ℝ)) = x := by
      clear this
      induction x with
      | nil => rfl
      | cons b x ih => simp [List.replicate_succ, ih]
    rw [e, List.length_replicate] at this
    rw [this]
    refine Finset.sum_congr rfl fun i hi => ?_
    rw [Finset.mem_range] at hi
    simp [rowPoint, List.getD_eq_getElem?_getD, List.getElem?_replicate, hi]

theorem rowSub_same {x y : Row} (h : x.length = y.length) : rowSub y.tail x.tail = .ok (List.zipWith (· - ·) y.tail x.tail) := by
  unfold rowSub
  rw [if_pos (by simp [h])]

theorem stretch_length {n : ℕ} {x : Row} (hn : 1 ≤ n) (h : x.length = 2 ∨ x.length = n) : (stretch n x).length = n := by
  unfold stretch
  split
  · simp; omega
  · omega

theorem zip_const : ∀ (x : Row) (a : ℝ), List.zipWith (· - ·) (List.replicate x.length a) x = x.map (fun b => a - b)
  | [], _ => rfl
  | b :: x, a => by simp [List.replicate_succ, zip_const x a]

theorem zip_const' : ∀ (x : Row) (a : ℝ), List.zipWith (· - ·) x (List.replicate x.length a) = x.map (fun b => b - a)
  | [], _ => rfl
  | b :: x, a => by simp [List.replicate_succ, zip_const' x a]

/-- subtraction of the space parts is the subtraction of the stretched rows -/
theorem rowSub_stretch {x y : Row} (hx : x ≠ []) (hy : y ≠ []) (h : SameShape x y) :
    ∃ d, rowSub y.tail x.tail = .ok d ∧ rowSq d = spaceSq (commonLength x y) (rowPoint (stretch (commonLength x y) x))
      (rowPoint (stretch (commonLength x y) y)) := by
  have hx1 : 1 ≤ x.length := List.length_pos_iff.2 hx
  have hy1 : 1 ≤ y.length := List.length_pos_iff.2 hy
  set n := commonLength x y with hn
  have lx : (stretch n x).length = n := by
    refine stretch_length ?_ ?_
    · rw [hn]; unfold commonLength; split <;> omega
    · rw [hn]; unfold commonLength
      by_cases h2 : x.length = 2
      · exact Or.inl h2
      · right; rw [if_neg h2]
  have ly : (stretch n y).length = n := by
    refine stretch_length ?_ ?_
    · rw [hn]; unfold commonLength; split <;> omega
    · rw [hn]; unfold commonLength
      by_cases h2 : x.length = 2
      · right; rw [if_pos h2]
      · rw [if_neg h2]
        rcases h with h | h | h
        · right; omega
        · exact absurd h h2
        · exact Or.inl h
  have key : rowSub y.tail x.tail = .ok (List.zipWith (· - ·) (stretch n y).tail (stretch n x).tail) := by
    by_cases hxy : x.length = y.length
    · rw [rowSub_same hxy]
      congr 1
      have hn' : n = x.length := by rw [hn]; unfold commonLength; split <;> omega
      have st : ∀ z : Row, z.length = n → (stretch n z).tail = z.tail := by
        intro z hz
        unfold stretch
        split
        · rename_i h2
          match z, h2 with
          | [a, b], _ => simp only [List.length_cons, List.length_nil] at hz; rw [← hz]; simp
        · rfl
      rw [st x hn'.symm, st y (by omega)]
    · rcases h with h | h | h
      · exact absurd h hxy
      · match x, h with
        | [a, b], _ =>
          have hn' : n = y.length := by rw [hn]; simp [commonLength]
          have sy : stretch n y = y := by unfold stretch; rw [if_neg]; intro h2; exact hxy (by simp [h2])
          rw [sy]
          unfold rowSub stretch
          rw [if_neg (by simp at hxy ⊢; omega)]
          by_cases hy2 : y.tail.length = 1
          · simp at hy2 hxy; omega
          · rw [if_neg hy2, if_pos (by simp), if_pos (by simp)]
            congr 1
            have := zip_const' y.tail b
            simp only [List.length_tail] at this
            simp [hn', this]
      · match y, h with
        | [a, b], _ =>
          have hx2 : x.length ≠ 2 := by intro h2; exact hxy (by simp [h2])
          have hn' : n = x.length := by rw [hn]; simp [commonLength, hx2]
          have sx : stretch n x = x := by unfold stretch; rw [if_neg hx2]
          rw [sx]
          unfold rowSub stretch
          rw [if_neg (by simp at hxy ⊢; omega), if_pos (by simp), if_pos (by simp)]
          congr 1
          have := zip_const x.tail b
          simp only [List.length_tail] at this
          simp [hn', this]
  refine ⟨_, key, ?_⟩
  rw [rowSq_tails (stretch n x) (stretch n y) (by omega) (by intro h0; rw [h0] at lx; simp at lx; rw [← lx] at hn; unfold commonLength at hn; split at hn <;> omega), lx]

theorem rowSub_err {x y : Row} (hx : x ≠ []) (hy : y ≠ []) (h : ¬ SameShape x y) : rowSub y.tail x.tail = .error .valueError := by
  have hx1 : 1 ≤ x.length := List.length_pos_iff.2 hx
  have hy1 : 1 ≤ y.length := List.length_pos_iff.2 hy
  unfold SameShape at h
  push Not at h
  unfold rowSub
  rw [if_neg (by simp; omega), if_neg (by simp; omega), if_neg (by simp; omega)]

theorem periodicSum_ok (period : ℕ → ℝ) (x y : Row) : ∀ (l : List ℕ) (s : ℝ), (∀ i ∈ l, i < x.length ∧ i < y.length) →
    periodicSumRow period x y l s = .ok (s + (l.map fun i => (periodicDelta (period (i - 1)) (rowPoint y i - rowPoint x i)) ^ 2).sum)
  | [], s, _ => by simp [periodicSumRow]
  | i :: l, s, h => by
    unfold periodicSumRow
    rw [rowAt_ok (h i (by simp)).2, rowAt_ok (h i (by simp)).1]
    simp only [bind, Except.bind]
    rw [periodicSum_ok period x y l _ fun j hj => h j (by simp [hj])]
    simp [add_assoc]

theorem periodicSum_err (period : ℕ → ℝ) (x y : Row) : ∀ (l : List ℕ) (s : ℝ), (∃ i ∈ l, ¬ (i < x.length ∧ i < y.length)) →
    periodicSumRow period x y l s = .error .indexError
  | [], s, h => by simp at h
  | i :: l, s, h => by
    unfold periodicSumRow
    by_cases hy : i < y.length
    · rw [rowAt_ok hy]
      by_cases hx : i < x.length
      · rw [rowAt_ok hx]
        simp only [bind, Except.bind]
        refine periodicSum_err period x y l _ ?_
        obtain ⟨j, hj, hh⟩ := h
        rcases List.mem_cons.1 hj with rfl | hj
        · exact absurd ⟨hx, hy⟩ hh
        · exact ⟨j, hj, hh⟩
      · rw [rowAt_err hx]; rfl
    · rw [rowAt_err hy]; rfl

theorem sum_range'_ico (d : ℕ) (f : ℕ → ℝ) : ((List.range' 1 (d - 1)).map f).sum = ∑ i ∈ Finset.Ico 1 d, f i := by
  rw [Finset.sum_Ico_eq_sum_range, List.range'_eq_map_range, List.map_map, Finset.sum_eq_multiset_sum]
  simp [Finset.range, Multiset.range, Function.comp_def, add_comm]

/-! ## Which rows raise -/

theorem lt_one {x : Row} : x.length < 1 ↔ x = [] := by simp [List.length_eq_zero_iff]

/-- the three outcomes, for every spacetime -/
theorem rows_trichotomy (eps : ℝ) (M : SpacetimeObj) (hM : M.Constructed) (x y : Row) :
    (M.BeyondHorizon x y → M.causalityRows eps x y = .ok (false, false)) ∧
    (¬ M.BeyondHorizon x y → (x.length < M.entriesRead ∨ y.length < M.entriesRead) → M.causalityRows eps x y = .error .indexError) ∧
    (¬ M.BeyondHorizon x y → ¬ (x.length < M.entriesRead ∨ y.length < M.entriesRead) → M.WholeRows → ¬ SameShape x y →
      M.causalityRows eps x y = .error .valueError) ∧
    (¬ M.BeyondHorizon x y → ¬ (x.length < M.entriesRead ∨ y.length < M.entriesRead) → (M.WholeRows → SameShape x y) →
      ∃ r, M.causalityRows eps x y = .ok r) := by
  have hdim := hM.dim_pos
  cases M with
  | base =>
    simp only [SpacetimeObj.BeyondHorizon, SpacetimeObj.entriesRead, SpacetimeObj.WholeRows, SpacetimeObj.causalityRows, causalityBaseRow]
    refine ⟨False.elim, fun _ h => ?_, fun _ _ h => h.elim, fun _ h _ => ?_⟩
    · by_cases hy : 0 < y.length
      · rw [rowAt_ok hy, rowAt_err (by omega)]; rfl
      · rw [rowAt_err hy]; rfl
    · rw [rowAt_ok (by omega), rowAt_ok (by omega)]; exact ⟨_, rfl⟩
  | flat M =>
    simp only [SpacetimeObj.dim] at hdim
    simp only [SpacetimeObj.BeyondHorizon, SpacetimeObj.entriesRead, SpacetimeObj.WholeRows, SpacetimeObj.causalityRows, FlatSpacetime.causalityRows]
    refine ⟨False.elim, ?_⟩
    by_cases h1 : M.dim = 1
    · rw [if_pos (Or.inr (by omega)), if_pos h1, h1]
      unfold causalityBaseRow
      refine ⟨fun _ h => ?_, fun _ _ h => by omega, fun _ h _ => ?_⟩
      · by_cases hy : 0 < y.length
        · rw [rowAt_ok hy, rowAt_err (by omega)]; rfl
        · rw [rowAt_err hy]; rfl
      · rw [rowAt_ok (by omega), rowAt_ok (by omega)]; exact ⟨_, rfl⟩
    · rw [if_neg h1]
      cases hp : M.isPeriodic with
      | false =>
        by_cases h2 : M.dim = 2
        · simp only [Bool.not_false, if_true, h2, le_refl, or_true]
          unfold causalityFlat2DRow
          refine ⟨fun _ h => ?_, fun _ _ h => by omega, fun _ h _ => ?_⟩
          · by_cases hy : 0 < y.length
            · by_cases hx : 0 < x.length
              · rw [rowAt_ok hy, rowAt_ok hx]
                by_cases hy1 : 1 < y.length
                · rw [rowAt_ok hy1, rowAt_err (by omega)]; rfl
                · rw [rowAt_err hy1]; rfl
              · rw [rowAt_ok hy, rowAt_err hx]; rfl
            · rw [rowAt_err hy]; rfl
          · rw [rowAt_ok (by omega), rowAt_ok (by omega), rowAt_ok (by omega), rowAt_ok (by omega)]; exact ⟨_, rfl⟩
        · have h3 : 3 ≤ M.dim := by omega
          simp only [Bool.not_false, if_true, h2, if_false, Bool.false_eq_true, false_or, show ¬ M.dim ≤ 2 by omega, true_and, h3, forall_const]
          unfold causalityFlatRow
          refine ⟨fun _ h => ?_, fun _ h hs => ?_, fun _ h hs => ?_⟩
          · by_cases hy : 0 < y.length
            · rw [rowAt_ok hy, rowAt_err (by omega)]; rfl
            · rw [rowAt_err hy]; rfl
          · rw [rowAt_ok (by omega), rowAt_ok (by omega), rowSub_err (fun hn => h (Or.inl (lt_one.2 hn))) (fun hn => h (Or.inr (lt_one.2 hn))) hs]; rfl
          · obtain ⟨d, hd, -⟩ := rowSub_stretch (fun hn => h (Or.inl (lt_one.2 hn))) (fun hn => h (Or.inr (lt_one.2 hn))) hs
            rw [rowAt_ok (by omega), rowAt_ok (by omega), hd]; exact ⟨_, rfl⟩
      | true =>
        by_cases h2 : M.dim = 2
        · simp only [Bool.not_true, if_false, Bool.false_eq_true, if_true, h2, true_or]
          unfold causalityFlat2DPeriodicRow
          refine ⟨fun _ h => ?_, fun _ _ h => by simp at h, fun _ h _ => ?_⟩
          · by_cases hy : 0 < y.length
            · by_cases hx : 0 < x.length
              · rw [rowAt_ok hy, rowAt_ok hx]
                by_cases hy1 : 1 < y.length
                · rw [rowAt_ok hy1, rowAt_err (by omega)]; rfl
                · rw [rowAt_err hy1]; rfl
              · rw [rowAt_ok hy, rowAt_err hx]; rfl
            · rw [rowAt_err hy]; rfl
          · rw [rowAt_ok (by omega), rowAt_ok (by omega), rowAt_ok (by omega), rowAt_ok (by omega)]; exact ⟨_, rfl⟩
        · simp only [Bool.not_true, if_false, Bool.false_eq_true, if_true, h2, true_or]
          unfold causalityFlatPeriodicRow
          refine ⟨fun _ h => ?_, fun _ _ h => by simp at h, fun _ h _ => ?_⟩
          · by_cases hy : 0 < y.length
            · by_cases hx : 0 < x.length
              · rw [rowAt_ok hy, rowAt_ok hx, periodicSum_err]; · rfl
                rcases h with h | h
                · exact ⟨x.length, by rw [List.mem_range'_1]; omega, by omega⟩
                · exact ⟨y.length, by rw [List.mem_range'_1]; omega, by omega⟩
              · rw [rowAt_ok hy, rowAt_err hx]; rfl
            · rw [rowAt_err hy]; rfl
          · rw [rowAt_ok (by omega), rowAt_ok (by omega), periodicSum_ok]; · exact ⟨_, rfl⟩
            intro i hi
            rw [List.mem_range'_1] at hi
            omega
  | deSitter d a =>
    simp only [SpacetimeObj.BeyondHorizon, SpacetimeObj.entriesRead, SpacetimeObj.WholeRows, SpacetimeObj.causalityRows, causalityDSRow, forall_const]
    have hb : ∀ z : Row, (z.tail.map (· ^ 2)).sum = rowSq z.tail := fun z => rfl
    rw [hb, hb]
    refine ⟨fun h => ?_, fun h0 h => ?_, fun h0 h hs => ?_, fun h0 h hs => ?_⟩
    · rw [if_pos (by simpa [test] using h)]
    all_goals rw [if_neg (by simpa [test] using h0)]
    · by_cases hx : 0 < x.length
      · rw [rowAt_ok hx, rowAt_err (by omega)]; rfl
      · rw [rowAt_err hx]; rfl
    · rw [rowAt_ok (by omega), rowAt_ok (by omega), rowSub_err (fun hn => h (Or.inl (lt_one.2 hn))) (fun hn => h (Or.inr (lt_one.2 hn))) hs]; rfl
    · obtain ⟨d, hd, -⟩ := rowSub_stretch (fun hn => h (Or.inl (lt_one.2 hn))) (fun hn => h (Or.inr (lt_one.2 hn))) hs
      rw [rowAt_ok (by omega), rowAt_ok (by omega), hd]; exact ⟨_, rfl⟩
  | antiDeSitter d a =>
    simp only [SpacetimeObj.BeyondHorizon, SpacetimeObj.entriesRead, SpacetimeObj.WholeRows, SpacetimeObj.causalityRows, causalityAdSRow, forall_const]
    refine ⟨False.elim, fun h0 h => ?_, fun h0 h hs => ?_, fun h0 h hs => ?_⟩
    · by_cases hx : 0 < x.length
      · rw [rowAt_ok hx, rowAt_err (by omega)]; rfl
      · rw [rowAt_err hx]; rfl
    · rw [rowAt_ok (by omega), rowAt_ok (by omega), rowSub_err (fun hn => h (Or.inl (lt_one.2 hn))) (fun hn => h (Or.inr (lt_one.2 hn))) hs]; rfl
    · obtain ⟨d, hd, -⟩ := rowSub_stretch (fun hn => h (Or.inl (lt_one.2 hn))) (fun hn => h (Or.inr (lt_one.2 hn))) hs
      rw [rowAt_ok (by omega), rowAt_ok (by omega), hd]; exact ⟨_, rfl⟩
  | blackHole r m =>
    simp only [SpacetimeObj.BeyondHorizon, SpacetimeObj.entriesRead, SpacetimeObj.WholeRows, SpacetimeObj.causalityRows, causalityBHRow]
    refine ⟨False.elim, fun _ h => ?_, fun _ _ h => h.elim, fun _ h _ => ?_⟩
    · by_cases hx : 1 < x.length
      · rw [rowAt_ok hx, rowAt_err (by omega)]; rfl
      · rw [rowAt_err hx]; rfl
    · rw [rowAt_ok (by omega), rowAt_ok (by omega)]; exact ⟨_, rfl⟩

/-- **C117, exceptions.** For every spacetime and any two rows: the causality function raises IndexError exactly if one of the rows is shorter than
the number of entries that are read one by one, ValueError exactly if it subtracts whole rows that have different lengths, none of them 2, and nothing
else; in de Sitter spacetime a point beyond the horizon is never an error. -/
theorem C117_errors (eps : ℝ) (M : SpacetimeObj) (hM : M.Constructed) (x y : Row) :
    (M.causalityRows eps x y = .error .indexError ↔
      ¬ M.BeyondHorizon x y ∧ (x.length < M.entriesRead ∨ y.length < M.entriesRead)) ∧
    (M.causalityRows eps x y = .error .valueError ↔
      ¬ M.BeyondHorizon x y ∧ M.entriesRead ≤ x.length ∧ M.entriesRead ≤ y.length ∧ M.WholeRows ∧ ¬ SameShape x y) ∧
    (∀ e, M.causalityRows eps x y = .error e → e = .indexError ∨ e = .valueError) := by
  obtain ⟨t1, t2, t3, t4⟩ := rows_trichotomy eps M hM x y
  by_cases hb : M.BeyondHorizon x y
  · rw [t1 hb]
    simp [hb]
  by_cases hl : x.length < M.entriesRead ∨ y.length < M.entriesRead
  · rw [t2 hb hl]
    refine ⟨by simp [hb, hl], ?_, fun e he => ?_⟩
    · simp only [Except.error.injEq, reduceCtorEq, false_iff]
      rintro ⟨-, h1, h2, -⟩; omega
    · left; simpa using he.symm
  by_cases hs : M.WholeRows → SameShape x y
  · obtain ⟨r, hr⟩ := t4 hb hl hs
    rw [hr]
    refine ⟨by simp [hl], ?_, by simp⟩
    simp only [reduceCtorEq, false_iff]
    rintro ⟨-, -, -, h1, h2⟩; exact h2 (hs h1)
  · push Not at hs
    rw [t3 hb hl hs.1 hs.2]
    push Not at hl
    refine ⟨by simp [hb]; omega, by simp [hb, hs.1, hs.2, hl.1, hl.2], fun e he => ?_⟩
    right; simpa using he.symm

theorem SameShape.symm {x y : Row} (h : SameShape x y) : SameShape y x := by unfold SameShape at *; omega

theorem SpacetimeObj.BeyondHorizon.symm {M : SpacetimeObj} {x y : Row} (h : M.BeyondHorizon x y) : M.BeyondHorizon y x := by
  cases M <;> simp only [SpacetimeObj.BeyondHorizon] at h ⊢
  exact Or.symm h

/-- the exception does not depend on the order of the rows -/
theorem rows_error_symm (eps : ℝ) (M : SpacetimeObj) (hM : M.Constructed) (x y : Row) (e : Err) (h : M.causalityRows eps x y = .error e) :
    M.causalityRows eps y x = .error e := by
  obtain ⟨a1, a2, a3⟩ := C117_errors eps M hM x y
  obtain ⟨b1, b2, -⟩ := C117_errors eps M hM y x
  rcases a3 e h with rfl | rfl
  · obtain ⟨h1, h2⟩ := a1.1 h
    exact b1.2 ⟨fun hh => h1 hh.symm, h2.symm⟩
  · obtain ⟨h1, h2, h3, h4, h5⟩ := a2.1 h
    exact b2.2 ⟨fun hh => h1 hh.symm, h3, h2, h4, fun hh => h5 hh.symm⟩

/-! ## The values -/

/-- **C117, fitting rows.** For rows with exactly `Dim` entries no exception is raised and the value is the one of the properties C43 and C44. -/
theorem C117_fit (eps : ℝ) (M : SpacetimeObj) (hM : M.Constructed) (x y : Row) (hx : x.length = M.dim) (hy : y.length = M.dim) :
    M.causalityRows eps x y = .ok (M.causality eps (rowPoint x) (rowPoint y)) := by
  have hdim := hM.dim_pos
  have hxn : x ≠ [] := by intro h; rw [h] at hx; simp at hx; omega
  cases M with
  | base =>
    simp only [SpacetimeObj.dim] at hx hy
    simp only [SpacetimeObj.causalityRows, SpacetimeObj.causality, causalityBaseRow]
    rw [rowAt_ok (by omega), rowAt_ok (by omega)]; rfl
  | flat M =>
    simp only [SpacetimeObj.dim] at hx hy hdim
    simp only [SpacetimeObj.causalityRows, SpacetimeObj.causality, FlatSpacetime.causalityRows, FlatSpacetime.causality]
    by_cases h1 : M.dim = 1
    · rw [if_pos h1, if_pos h1]
      unfold causalityBaseRow
      rw [rowAt_ok (by omega), rowAt_ok (by omega)]; rfl
    · rw [if_neg h1, if_neg h1]
      cases hp : M.isPeriodic with
      | false =>
        by_cases h2 : M.dim = 2
        · simp only [Bool.not_false, if_true, h2]
          unfold causalityFlat2DRow
          rw [rowAt_ok (by omega), rowAt_ok (by omega), rowAt_ok (by omega), rowAt_ok (by omega)]; rfl
        · simp only [Bool.not_false, if_true, h2, if_false]
          unfold causalityFlatRow
          rw [rowAt_ok (by omega), rowAt_ok (by omega), rowSub_same (by omega)]
          simp only [bind, Except.bind, pure, Except.pure]
          rw [rowSq_tails x y (by omega) hxn, hx]
          rfl
      | true =>
        by_cases h2 : M.dim = 2
        · simp only [Bool.not_true, if_false, Bool.false_eq_true, if_true, h2]
          unfold causalityFlat2DPeriodicRow
          rw [rowAt_ok (by omega), rowAt_ok (by omega), rowAt_ok (by omega), rowAt_ok (by omega)]; rfl
        · simp only [Bool.not_true, if_false, Bool.false_eq_true, h2]
          unfold causalityFlatPeriodicRow
          rw [rowAt_ok (by omega), rowAt_ok (by omega), periodicSum_ok]
          · simp only [bind, Except.bind, pure, Except.pure]
            rw [zero_add, sum_range'_ico]
            rfl
          · intro i hi
            rw [List.mem_range'_1] at hi
            omega
  | deSitter d a =>
    simp only [SpacetimeObj.dim] at hx hy hdim
    have hyn : y ≠ [] := by intro h; rw [h] at hy; simp at hy; omega
    simp only [SpacetimeObj.causalityRows, SpacetimeObj.causality, causalityDSRow, causalityDS]
    rw [rowSq_tail x hxn, rowSq_tail y hyn, hx, hy]
    split
    · rfl
    · rw [rowAt_ok (by omega), rowAt_ok (by omega), rowSub_same (by omega)]
      simp only [bind, Except.bind, pure, Except.pure]
      rw [rowSq_tails x y (by omega) hxn, hx]
  | antiDeSitter d a =>
    simp only [SpacetimeObj.dim] at hx hy hdim
    have hyn : y ≠ [] := by intro h; rw [h] at hy; simp at hy; omega
    simp only [SpacetimeObj.causalityRows, SpacetimeObj.causality, causalityAdSRow, causalityAdS]
    rw [rowSq_tail x hxn, rowSq_tail y hyn, hx, hy]
    rw [rowAt_ok (by omega), rowAt_ok (by omega), rowSub_same (by omega)]
    simp only [bind, Except.bind, pure, Except.pure]
    rw [rowSq_tails x y (by omega) hxn, hx]
  | blackHole r m =>
    simp only [SpacetimeObj.dim] at hx hy
    simp only [SpacetimeObj.causalityRows, SpacetimeObj.causality, causalityBHRow]
    rw [rowAt_ok (by omega), rowAt_ok (by omega)]; rfl

/-- **C117, values.** In Minkowski spacetime of any dimension from 3 on, the rows decide about the dimension: any two rows with `n ≥ 1` entries are
compared in Minkowski spacetime of dimension `n` (whatever the dimension of the spacetime object), and a row with two entries is compared with a row of
any other length as if its space coordinate was repeated in all directions. -/
theorem C117_flat_values (eps : ℝ) (M : FlatSpacetime) (h3 : 3 ≤ M.dim) (hp : M.isPeriodic = false) (x y : Row) (hx : x ≠ []) (hy : y ≠ [])
    (h : SameShape x y) :
    SpacetimeObj.causalityRows eps (.flat M) x y =
      .ok (causalityFlat eps (commonLength x y) (rowPoint (stretch (commonLength x y) x)) (rowPoint (stretch (commonLength x y) y))) := by
  have hx1 : 0 < x.length := List.length_pos_iff.2 hx
  have hy1 : 0 < y.length := List.length_pos_iff.2 hy
  obtain ⟨d, hd, hd2⟩ := rowSub_stretch hx hy h
  simp only [SpacetimeObj.causalityRows, FlatSpacetime.causalityRows, hp, show M.dim ≠ 1 by omega, show M.dim ≠ 2 by omega, if_false, Bool.not_false, if_true]
  unfold causalityFlatRow causalityFlat
  rw [rowAt_ok hx1, rowAt_ok hy1, hd]
  simp only [bind, Except.bind, pure, Except.pure]
  rw [hd2]
  have h0 : ∀ (n : ℕ) (z : Row), z ≠ [] → rowPoint (stretch n z) 0 = rowPoint z 0 := by
    intro n z hz
    unfold stretch
    split
    · simp [rowPoint]
    · rfl
  rw [h0 _ _ hx, h0 _ _ hy]

/-- **C117, values, rows of equal length in curved spacetimes.** They are compared in (anti-)de Sitter spacetime of the dimension of the rows, whatever
the dimension of the spacetime object. -/
theorem C117_curved_values (eps alpha : ℝ) (d : ℕ) (x y : Row) (hx : x ≠ []) (h : x.length = y.length) :
    SpacetimeObj.causalityRows eps (.deSitter d alpha) x y = .ok (causalityDS eps x.length alpha (rowPoint x) (rowPoint y)) ∧
    SpacetimeObj.causalityRows eps (.antiDeSitter d alpha) x y = .ok (causalityAdS eps x.length alpha (rowPoint x) (rowPoint y)) := by
  have hx1 : 0 < x.length := List.length_pos_iff.2 hx
  have hy : y ≠ [] := List.length_pos_iff.1 (h ▸ hx1)
  constructor
  · simp only [SpacetimeObj.causalityRows, causalityDSRow, causalityDS]
    rw [rowSq_tail x hx, rowSq_tail y hy, ← h]
    split
    · rfl
    · rw [rowAt_ok hx1, rowAt_ok (by omega), rowSub_same h]
      simp only [bind, Except.bind, pure, Except.pure]
      rw [rowSq_tails x y h hx]
  · simp only [SpacetimeObj.causalityRows, causalityAdSRow, causalityAdS]
    rw [rowSq_tail x hx, rowSq_tail y hy, ← h]
    rw [rowAt_ok hx1, rowAt_ok (by omega), rowSub_same h]
    simp only [bind, Except.bind, pure, Except.pure]
    rw [rowSq_tails x y h hx]

/-- **C117, values, the other spacetimes.** In one or two dimensions, with periods, and for black holes, further entries are ignored: the value is the
one of the first `Dim` entries. -/
theorem C117_first_values (eps : ℝ) (M : SpacetimeObj) (hM : M.Constructed) (hw : ¬ M.WholeRows) (x y : Row)
    (hx : M.dim ≤ x.length) (hy : M.dim ≤ y.length) :
    M.causalityRows eps x y = M.causalityRows eps (x.take M.dim) (y.take M.dim) := by
  have hdim := hM.dim_pos
  have hat : ∀ (z : Row) (i : ℕ), M.dim ≤ z.length → i < M.dim → rowAt (z.take M.dim) i = rowAt z i := by
    intro z i h1 h2
    unfold rowAt
    rw [List.getElem?_take_of_lt h2]
  have hpt : ∀ (z : Row) (i : ℕ), i < M.dim → rowPoint (z.take M.dim) i = rowPoint z i := by
    intro z i h2
    unfold rowPoint
    rw [List.getD_eq_getElem?_getD, List.getD_eq_getElem?_getD, List.getElem?_take_of_lt h2]
  cases M with
  | base =>
    simp only [SpacetimeObj.dim] at *
    simp only [SpacetimeObj.causalityRows, causalityBaseRow]
    rw [hat x 0 hx (by omega), hat y 0 hy (by omega)]
  | flat M =>
    simp only [SpacetimeObj.dim] at *
    simp only [SpacetimeObj.WholeRows] at hw
    simp only [SpacetimeObj.causalityRows, FlatSpacetime.causalityRows]
    by_cases h1 : M.dim = 1
    · rw [if_pos h1]
      unfold causalityBaseRow
      rw [hat x 0 hx (by omega), hat y 0 hy (by omega)]
    · rw [if_neg h1]
      cases hp : M.isPeriodic with
      | false =>
        have h2 : M.dim = 2 := by simp only [hp, true_and] at hw; omega
        simp only [Bool.not_false, if_true, if_pos h2]
        unfold causalityFlat2DRow
        rw [hat x 0 hx (by omega), hat y 0 hy (by omega), hat x 1 hx (by omega), hat y 1 hy (by omega)]
      | true =>
        by_cases h2 : M.dim = 2
        · simp only [Bool.not_true, if_false, Bool.false_eq_true, if_pos h2]
          unfold causalityFlat2DPeriodicRow
          rw [hat x 0 hx (by omega), hat y 0 hy (by omega), hat x 1 hx (by omega), hat y 1 hy (by omega)]
        · simp only [Bool.not_true, if_false, Bool.false_eq_true, if_neg h2]
          unfold causalityFlatPeriodicRow
          have e : ((List.range' 1 (M.dim - 1)).map fun i =>
              (periodicDelta ((M.period.getD []).getD (i - 1) 0) (rowPoint (y.take M.dim) i - rowPoint (x.take M.dim) i)) ^ 2) =
              (List.range' 1 (M.dim - 1)).map fun i => (periodicDelta ((M.period.getD []).getD (i - 1) 0) (rowPoint y i - rowPoint x i)) ^ 2 := by
            refine List.map_congr_left fun i hi => ?_
            rw [List.mem_range'_1] at hi
            rw [hpt x i (by omega), hpt y i (by omega)]
          rw [hat x 0 hx (by omega), hat y 0 hy (by omega), periodicSum_ok, periodicSum_ok, e]
          all_goals
            intro i hi
            rw [List.mem_range'_1] at hi
            try simp only [List.length_take]
            omega
  | deSitter d a => exact absurd trivial hw
  | antiDeSitter d a => exact absurd trivial hw
  | blackHole r m =>
    simp only [SpacetimeObj.dim] at *
    simp only [SpacetimeObj.causalityRows, causalityBHRow]
    rw [hat x 1 hx (by omega), hat y 1 hy (by omega)]
    have e : causalityBH m r (rowPoint (x.take 2)) (rowPoint (y.take 2)) = causalityBH m r (rowPoint x) (rowPoint y) := by
      unfold causalityBH
      rw [hpt x 0 (by omega), hpt y 0 (by omega), hpt x 1 (by omega), hpt y 1 (by omega)]
    rw [e]

end Causets
