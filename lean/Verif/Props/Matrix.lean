import Verif.Props.Construct
import Verif.Props.Sorting

/-! # C14–C16: `FromPastMatrix`, `FromFutureMatrix` -/

namespace Causets

open Heap

open Function (update)

variable {h : Heap}

/-! ## fresh events without relations -/

theorem newEvent_nil (it : Iter) (h : Heap) (l : Option Label) :
    h.newEvent it l [] [] = (h.next, h.alloc l [] []) := by
  have e : ∀ c, it.ord c ∅ = [] := fun c => by
    rw [List.eq_nil_iff_forall_not_mem]; intro x hx; rw [it.mem] at hx; simp at hx
  unfold newEvent
  simp [alloc, e]

/-- what creating `n` events without past and future does to every field -/
structure FreshEvents (h h1 : Heap) (n : ℕ) (lab : ℕ → Option Label) : Prop where
  next : h1.next = h.next + n
  label : ∀ x, h1.label x = if h.next ≤ x ∧ x < h.next + n then lab (x - h.next) else h.label x
  prec : ∀ x, h1.prec x = if h.next ≤ x ∧ x < h.next + n then ∅ else h.prec x
  succ : ∀ x, h1.succ x = if h.next ≤ x ∧ x < h.next + n then ∅ else h.succ x
  lprec : ∀ x, h1.lprec x = if h.next ≤ x ∧ x < h.next + n then none else h.lprec x
  lsucc : ∀ x, h1.lsucc x = if h.next ≤ x ∧ x < h.next + n then none else h.lsucc x

theorem newEvents_fresh (it : Iter) (f : ℕ → Option Label) : ∀ (n k : ℕ) (h : Heap),
    (newEvents it ((List.range' k n).map (fun i => (f i, []))) h).1 = List.range' h.next n ∧
    FreshEvents h (newEvents it ((List.range' k n).map (fun i => (f i, []))) h).2 n
      (fun i => f (k + i)) := by
  intro n
  induction n with
  | zero =>
    intro k h
    refine ⟨rfl, rfl, ?_, ?_, ?_, ?_, ?_⟩ <;> intro x <;>
      rw [if_neg (show ¬ (h.next ≤ x ∧ x < h.next + 0) by omega)] <;> rfl
  | succ n ih =>
    intro k h
    rw [List.range'_succ, List.map_cons, newEvents, newEvent_nil]
    obtain ⟨h1, h2⟩ := ih (k + 1) (h.alloc (f k) [] [])
    refine ⟨?_, ?_⟩
    · simp only [h1, List.range'_succ]; rfl
    · have hn : (h.alloc (f k) [] []).next = h.next + 1 := rfl
      have key : ∀ {α : Type} (A B g : ℕ → α) (c : ℕ → α),
          (∀ x, A x = if h.next + 1 ≤ x ∧ x < h.next + 1 + n then c x else update g h.next (c h.next) x) →
          ∀ x, A x = if h.next ≤ x ∧ x < h.next + (n + 1) then c x else g x := by
        intro α A B g c hA x
        rw [hA]
        by_cases hx : x = h.next
        · subst hx
          rw [if_neg (by omega), if_pos (by omega), Function.update_self]
        · rw [Function.update_of_ne hx]
          by_cases hx2 : h.next + 1 ≤ x ∧ x < h.next + 1 + n
          · rw [if_pos hx2, if_pos (by omega)]
          · rw [if_neg hx2, if_neg (by omega)]
      refine ⟨by rw [h2.next, hn]; omega, ?_, ?_, ?_, ?_, ?_⟩
      · refine key _ h.label h.label (fun x => f (k + (x - h.next))) fun x => ?_
        rw [h2.label x, hn]
        by_cases hx2 : h.next + 1 ≤ x ∧ x < h.next + 1 + n
        · rw [if_pos hx2, if_pos hx2]; congr 1; omega
        · rw [if_neg hx2, if_neg hx2]; simp [alloc]
      · exact key _ h.prec h.prec (fun _ => ∅) fun x => h2.prec x
      · exact key _ h.succ h.succ (fun _ => ∅) fun x => h2.succ x
      · exact key _ h.lprec h.lprec (fun _ => none) fun x => h2.lprec x
      · exact key _ h.lsucc h.lsucc (fun _ => none) fun x => h2.lsucc x

/-! ## the first loop -/

/-- the past of event number `i` according to row `i` of the matrix -/
def rowSet (C : BMat) (b i : ℕ) : Finset EId :=
  (((List.range C.cols).filter (fun j => C.at' i j)).map (fun j => (List.range' b C.cols).getD j 0)).toFinset

/-- the future of event number `i` according to column `i` -/
def colSet (C : BMat) (b i : ℕ) : Finset EId :=
  (((List.range C.rows).filter (fun j => C.at' j i)).map (fun j => (List.range' b C.cols).getD j 0)).toFinset

theorem getD_range' {b n i : ℕ} (hi : i < n) : (List.range' b n).getD i 0 = b + i := by
  simp [List.getD, hi]

theorem mem_rowSet (C : BMat) (b i x : ℕ) : x ∈ rowSet C b i ↔ ∃ j < C.cols, C.at' i j = true ∧ x = b + j := by
  simp only [rowSet, List.mem_toFinset, List.mem_map, List.mem_filter, List.mem_range]
  constructor
  · rintro ⟨j, ⟨h1, h2⟩, rfl⟩; exact ⟨j, h1, h2, getD_range' h1⟩
  · rintro ⟨j, h1, h2, rfl⟩; exact ⟨j, ⟨h1, h2⟩, getD_range' h1⟩

theorem mem_colSet (C : BMat) (b i x : ℕ) (hrc : C.rows ≤ C.cols) :
    x ∈ colSet C b i ↔ ∃ j < C.rows, C.at' j i = true ∧ x = b + j := by
  simp only [colSet, List.mem_toFinset, List.mem_map, List.mem_filter, List.mem_range]
  constructor
  · rintro ⟨j, ⟨h1, h2⟩, rfl⟩; exact ⟨j, h1, h2, getD_range' (by omega)⟩
  · rintro ⟨j, h1, h2, rfl⟩; exact ⟨j, ⟨h1, h2⟩, getD_range' (by omega)⟩

/-- a causal loop of length 1 or 2 through event number `k` -/
def ShortLoop (C : BMat) (k : ℕ) : Prop := ∃ j < C.rows, C.at' k j = true ∧ C.at' j k = true

theorem shortLoop_iff (C : BMat) (b k : ℕ) (hrc : C.rows ≤ C.cols) (hk : k < C.rows) :
    (rowSet C b k ∩ colSet C b k ≠ ∅ ∨ b + k ∈ rowSet C b k ∨ b + k ∈ colSet C b k) ↔ ShortLoop C k := by
  rw [mem_rowSet, mem_colSet _ _ _ _ hrc, ← Finset.nonempty_iff_ne_empty]
  constructor
  · rintro (⟨x, hx⟩ | ⟨j, h1, h2, h3⟩ | ⟨j, h1, h2, h3⟩)
    · rw [Finset.mem_inter, mem_rowSet, mem_colSet _ _ _ _ hrc] at hx
      obtain ⟨⟨j, h1, h2, rfl⟩, ⟨j', h3, h4, h5⟩⟩ := hx
      have : j = j' := by omega
      subst this
      exact ⟨j, h3, h2, h4⟩
    · have : k = j := by omega
      subst this; exact ⟨k, hk, h2, h2⟩
    · have : k = j := by omega
      subst this; exact ⟨k, hk, h2, h2⟩
  · rintro ⟨j, h1, h2, h3⟩
    refine Or.inl ⟨b + j, ?_⟩
    rw [Finset.mem_inter, mem_rowSet, mem_colSet _ _ _ _ hrc]
    exact ⟨⟨j, by omega, h2, rfl⟩, ⟨j, h1, h3, rfl⟩⟩

theorem loop1_succ (C : BMat) (b n i : ℕ) (g : Heap) (hi : i < C.cols) :
    pastMatrixLoop1 C (List.range' b C.cols) (n + 1) i g =
      if rowSet C b i ∩ colSet C b i ≠ ∅ ∨ b + i ∈ rowSet C b i ∨ b + i ∈ colSet C b i then
        (.error .valueError, g)
      else pastMatrixLoop1 C (List.range' b C.cols) n (i + 1) { g with
        prec := update g.prec (b + i) (rowSet C b i), succ := update g.succ (b + i) (colSet C b i) } := by
  rw [pastMatrixLoop1]
  simp only [getD_range' hi]
  rfl

theorem loop1_err (C : BMat) (b : ℕ) (hrc : C.rows ≤ C.cols) : ∀ (n i : ℕ) (g : Heap), i + n ≤ C.rows →
    (∃ k, i ≤ k ∧ k < i + n ∧ ShortLoop C k) →
    (pastMatrixLoop1 C (List.range' b C.cols) n i g).1 = .error .valueError := by
  intro n
  induction n with
  | zero => rintro i g - ⟨k, h1, h2, -⟩; omega
  | succ n ih =>
    rintro i g hin ⟨k, h1, h2, h3⟩
    rw [loop1_succ C b n i g (by omega)]
    by_cases hb : ShortLoop C i
    · rw [if_pos ((shortLoop_iff C b i hrc (by omega)).2 hb)]
    · rw [if_neg (fun hc => hb ((shortLoop_iff C b i hrc (by omega)).1 hc))]
      have : k ≠ i := by rintro rfl; exact hb h3
      exact ih _ _ (by omega) ⟨k, by omega, by omega, h3⟩

theorem loop1_ok (C : BMat) (b : ℕ) (hrc : C.rows ≤ C.cols) : ∀ (n i : ℕ) (g : Heap), i + n ≤ C.rows →
    (∀ k, i ≤ k → k < i + n → ¬ ShortLoop C k) →
    ∃ g', pastMatrixLoop1 C (List.range' b C.cols) n i g = (.ok (), g') ∧ g'.next = g.next ∧
      g'.label = g.label ∧ g'.lprec = g.lprec ∧ g'.lsucc = g.lsucc ∧
      (∀ x, g'.prec x = if b + i ≤ x ∧ x < b + i + n then rowSet C b (x - b) else g.prec x) ∧
      (∀ x, g'.succ x = if b + i ≤ x ∧ x < b + i + n then colSet C b (x - b) else g.succ x) := by
  intro n
  induction n with
  | zero =>
    intro i g _ _
    refine ⟨g, rfl, rfl, rfl, rfl, rfl, ?_, ?_⟩ <;> intro x <;> rw [if_neg (by omega)]
  | succ n ih =>
    intro i g hin hk
    rw [loop1_succ C b n i g (by omega)]
    rw [if_neg (fun hc => hk i le_rfl (by omega) ((shortLoop_iff C b i hrc (by omega)).1 hc))]
    obtain ⟨g', h1, h2, h3, h4, h5, h6, h7⟩ := ih (i + 1) ({ g with
      prec := update g.prec (b + i) (rowSet C b i), succ := update g.succ (b + i) (colSet C b i) }) (by omega)
      (fun k h1 h2 => hk k (by omega) (by omega))
    have key : ∀ (A B : ℕ → Finset EId) (g : ℕ → Finset EId),
        (∀ x, A x = if b + (i + 1) ≤ x ∧ x < b + (i + 1) + n then B (x - b) else update g (b + i) (B i) x) →
        ∀ x, A x = if b + i ≤ x ∧ x < b + i + (n + 1) then B (x - b) else g x := by
      intro A B g hA x
      rw [hA]
      by_cases hx : x = b + i
      · subst hx
        rw [if_neg (by omega), if_pos (by omega), Function.update_self, Nat.add_sub_cancel_left]
      · rw [Function.update_of_ne hx]
        by_cases hx2 : b + (i + 1) ≤ x ∧ x < b + (i + 1) + n
        · rw [if_pos hx2, if_pos (by omega)]
        · rw [if_neg hx2, if_neg (by omega)]
    exact ⟨g', h1, h2, h3, h4, h5, key _ _ _ h6, key _ _ _ h7⟩

/-! ## the state before the second loop -/

/-- pasts and futures as the matrix gives them -/
structure MatHeap (h : Heap) (C : BMat) (g : Heap) : Prop where
  next : g.next = h.next + C.cols
  label : ∀ x, g.label x = if h.next ≤ x ∧ x < h.next + C.cols then some (.int ((x - h.next : ℕ) + 1))
    else h.label x
  prec : ∀ x, g.prec x = if h.next ≤ x ∧ x < h.next + C.cols then
    (if x < h.next + C.rows then rowSet C h.next (x - h.next) else ∅) else h.prec x
  succ : ∀ x, g.succ x = if h.next ≤ x ∧ x < h.next + C.cols then
    (if x < h.next + C.rows then colSet C h.next (x - h.next) else ∅) else h.succ x
  lprec : ∀ x, g.lprec x = if h.next ≤ x ∧ x < h.next + C.cols then none else h.lprec x
  lsucc : ∀ x, g.lsucc x = if h.next ≤ x ∧ x < h.next + C.cols then none else h.lsucc x

theorem fromPastMatrix_ok (it : Iter) (C : BMat) (h : Heap) (hrc : C.rows ≤ C.cols)
    (hk : ∀ k < C.rows, ¬ ShortLoop C k) :
    ∃ g, MatHeap h C g ∧ fromPastMatrix it C h =
      ((pastMatrixLoop2 it (List.range' h.next C.cols) g).causetInit it
        (List.range' h.next C.cols).toFinset, pastMatrixLoop2 it (List.range' h.next C.cols) g) := by
  unfold fromPastMatrix
  rw [if_neg (by omega)]
  obtain ⟨e1, f1⟩ := newEvents_fresh it (fun i => some (.int ((i : ℤ) + 1))) C.cols 0 h
  rw [← List.range_eq_range'] at e1 f1
  simp only [e1]
  obtain ⟨g', h1, h2, h3, h4, h5, h6, h7⟩ := loop1_ok C h.next hrc C.rows 0
    (newEvents it ((List.range C.cols).map (fun (i : ℕ) => (some (.int ((i : ℤ) + 1)), []))) h).2 (by omega)
    (fun k _ hk' => hk k (by omega))
  rw [h1]
  refine ⟨g', ⟨by rw [h2, f1.next], fun x => ?_, fun x => ?_, fun x => ?_, fun x => ?_, fun x => ?_⟩, rfl⟩
  · rw [h3, f1.label]; simp
  · rw [h6, f1.prec]
    by_cases hx : h.next ≤ x ∧ x < h.next + C.cols
    · by_cases hx2 : x < h.next + C.rows
      · rw [if_pos (by omega), if_pos hx, if_pos hx2]
      · rw [if_neg (by omega), if_pos hx, if_pos hx, if_neg hx2]
    · rw [if_neg (by omega), if_neg hx, if_neg hx]
  · rw [h7, f1.succ]
    by_cases hx : h.next ≤ x ∧ x < h.next + C.cols
    · by_cases hx2 : x < h.next + C.rows
      · rw [if_pos (by omega), if_pos hx, if_pos hx2]
      · rw [if_neg (by omega), if_pos hx, if_pos hx, if_neg hx2]
    · rw [if_neg (by omega), if_neg hx, if_neg hx]
  · rw [h4, f1.lprec]
  · rw [h5, f1.lsucc]

/-- completing sets that are already complete changes nothing -/
theorem loop2_fix (it : Iter) (L : List EId) (g : Heap)
    (hp : ∀ e ∈ L, ∀ a ∈ g.prec e, g.prec a ⊆ g.prec e) (hs : ∀ e ∈ L, ∀ a ∈ g.succ e, g.succ a ⊆ g.succ e) :
    pastMatrixLoop2 it L g = g := by
  induction L with
  | nil => rfl
  | cons e es ih =>
    rw [pastMatrixLoop2]
    have e1 : g.pastOf it (g.prec e) true false = g.prec e := by
      ext x
      simp only [pastOf, foldl_union_mem, it.mem, past, Bool.and_false, Bool.false_eq_true, if_false, if_true,
        Finset.mem_union, Finset.notMem_empty, false_or]
      exact ⟨by rintro (⟨a, ha, hx⟩ | hx); exacts [hp e (by simp) a ha hx, hx], Or.inr⟩
    have e2 : g.futureOf it (g.succ e) true false = g.succ e := by
      ext x
      simp only [futureOf, foldl_union_mem, it.mem, future, Bool.and_false, Bool.false_eq_true, if_false, if_true,
        Finset.mem_union, Finset.notMem_empty, false_or]
      exact ⟨by rintro (⟨a, ha, hx⟩ | hx); exacts [hs e (by simp) a ha hx, hx], Or.inr⟩
    simp only [e1, Function.update_eq_self, e2]
    exact ih (fun e he => hp e (by simp [he])) (fun e he => hs e (by simp [he]))

/-! ## C14 -/

/-- `C` is the n × n matrix of a strict partial order: `C[i, j]` says that `j` precedes `i`. -/
structure IsOrderMatrix (n : ℕ) (C : BMat) : Prop where
  rows : C.rows = n
  cols : C.cols = n
  irrefl : ∀ i < n, C.at' i i = false
  trans : ∀ i < n, ∀ j < n, ∀ k < n, C.at' i j = true → C.at' j k = true → C.at' i k = true

theorem range'_toFinset_eq (b n : ℕ) :
    (List.range' b n).toFinset = Finset.univ.image (fun i : Fin n => b + (i : ℕ)) := by
  ext x
  simp only [List.mem_toFinset, List.mem_range'_1, Finset.mem_image, Finset.mem_univ, true_and]
  constructor
  · rintro ⟨h1, h2⟩
    exact ⟨⟨x - b, by omega⟩, by simp; omega⟩
  · rintro ⟨i, rfl⟩; have := i.2; omega

/-- **C14, `FromPastMatrix`.** In every consistent state and for every matrix `C` of a strict partial order on n
indices, `FromPastMatrix(C)` returns a causet of n new events labelled 1, …, n, the i-th after the j-th exactly if
`C[i, j]`; nothing else changes, exact link memory stays exact; and `PastMatrix` for these events in label order returns `C`. -/
theorem C14_fromPastMatrix (it : Iter) (n : ℕ) (C : BMat) (hC : IsOrderMatrix n C) (h : Heap) (v : h.Valid) :
    ∃ (ids : Fin n → EId) (h' : Heap), fromPastMatrix it C h = (.ok (Finset.univ.image ids), h') ∧
      h.Realises h' ids (fun j i => C.at' i j = true) ∧
      (∀ i, h'.label (ids i) = some (.int ((i : ℕ) + 1))) ∧
      (h.LinksExact → h'.LinksExact) ∧
      ∀ it' as, ∃ M, h'.pastMatrix it' as (Finset.univ.image ids) (some (List.ofFn ids)) = .ok M ∧
        M.length = n ∧ (∀ row ∈ M, row.length = n) ∧
        ∀ i j, i < n → j < n → matEntry M i j = C.at' i j := by
  obtain ⟨g, mg, eq⟩ := fromPastMatrix_ok it C h (by rw [hC.rows, hC.cols]) (by
    rintro k hk ⟨j, hj, h1, h2⟩
    rw [hC.rows] at hk hj
    have := hC.trans k hk j hj k hk h1 h2
    rw [hC.irrefl k hk] at this; cases this)
  have hr := hC.rows
  have hc := hC.cols
  -- past and future of the new events
  have hp : ∀ x y, x ∈ g.prec y ↔ h.Lt x y ∨
      ∃ i j, i < n ∧ j < n ∧ C.at' i j = true ∧ x = h.next + j ∧ y = h.next + i := by
    intro x y
    rw [mg.prec, hc, hr]
    by_cases hy : h.next ≤ y ∧ y < h.next + n
    · rw [if_pos hy, if_pos hy.2, mem_rowSet, hc]
      constructor
      · rintro ⟨j, h1, h2, rfl⟩
        exact Or.inr ⟨y - h.next, j, by omega, h1, h2, rfl, by omega⟩
      · rintro (h1 | ⟨i, j, h1, h2, h3, rfl, rfl⟩)
        · have : y < h.next := (v.exists_of_lt _ _ h1).2
          omega
        · exact ⟨j, h2, by rw [Nat.add_sub_cancel_left]; exact h3, rfl⟩
    · rw [if_neg hy, v.mem_prec]
      refine ⟨Or.inl, ?_⟩
      rintro (h1 | ⟨i, j, h1, h2, h3, rfl, rfl⟩)
      · exact h1
      · omega
  have hs : ∀ x y, y ∈ g.succ x ↔ h.Lt x y ∨
      ∃ i j, i < n ∧ j < n ∧ C.at' i j = true ∧ x = h.next + j ∧ y = h.next + i := by
    intro x y
    rw [mg.succ, hc, hr]
    by_cases hy : h.next ≤ x ∧ x < h.next + n
    · rw [if_pos hy, if_pos hy.2, mem_colSet _ _ _ _ (by omega), hr]
      constructor
      · rintro ⟨i, h1, h2, rfl⟩
        exact Or.inr ⟨i, x - h.next, h1, by omega, h2, by omega, rfl⟩
      · rintro (h1 | ⟨i, j, h1, h2, h3, rfl, rfl⟩)
        · have : x < h.next := (v.exists_of_lt _ _ h1).1
          omega
        · exact ⟨i, h1, by rw [Nat.add_sub_cancel_left]; exact h3, rfl⟩
    · rw [if_neg hy, v.mem_succ]
      refine ⟨Or.inl, ?_⟩
      rintro (h1 | ⟨i, j, h1, h2, h3, rfl, rfl⟩)
      · exact h1
      · omega
  have tr : ∀ x y z, x ∈ g.prec y → y ∈ g.prec z → x ∈ g.prec z := by
    intro x y z
    rw [hp, hp, hp]
    rintro (h1 | ⟨i, j, h1, h2, h3, rfl, rfl⟩) (h1' | ⟨i', j', h1', h2', h3', h4', rfl⟩)
    · exact Or.inl (v.trans h1 h1')
    · have : y < h.next := (v.exists_of_lt _ _ h1).2
      omega
    · have : h.next + i < h.next := (v.exists_of_lt _ _ h1').1
      omega
    · have : i = j' := by omega
      subst this
      exact Or.inr ⟨i', j, h1', h2, hC.trans i' h1' i h1 j h2 h3' h3, rfl, rfl⟩
  have ps : ∀ x y, y ∈ g.succ x ↔ x ∈ g.prec y := fun x y => (hs x y).trans (hp x y).symm
  have fix : pastMatrixLoop2 it (List.range' h.next C.cols) g = g := by
    refine loop2_fix it _ g (fun e _ a ha x hx => tr x a e hx ha) (fun e _ a ha x hx => ?_)
    rw [ps] at ha hx ⊢
    exact tr e a x ha hx
  rw [fix] at eq
  have lt : ∀ x y, g.Lt x y ↔ h.Lt x y ∨
      ∃ i j, i < n ∧ j < n ∧ C.at' i j = true ∧ x = h.next + j ∧ y = h.next + i := fun x y => by
    rw [lt_iff]; exact hp x y
  have nx : g.next = h.next + n := by rw [mg.next, hc]
  have vg : g.Valid := by
    refine ⟨⟨fun a ha => ?_, fun a b c h1 h2 => ?_⟩, fun a b => (g.lt_iff a b).symm, fun a b => ?_, fun a b hab => ?_⟩
    · rw [lt] at ha
      rcases ha with ha | ⟨i, j, h1, h2, h3, rfl, h5⟩
      · exact v.irrefl a ha
      · have : i = j := by omega
        subst this
        rw [hC.irrefl i h1] at h3; cases h3
    · rw [lt_iff] at *; exact tr a b c h1 h2
    · rw [show (b ∈ g.future a ↔ b ∈ g.succ a) from Iff.rfl, ps, lt_iff]
    · rw [lt] at hab
      show a < g.next ∧ b < g.next
      rw [nx]
      rcases hab with hab | ⟨i, j, h1, h2, h3, rfl, rfl⟩
      · have h1 : a < h.next := (v.exists_of_lt _ _ hab).1
        have h2 : b < h.next := (v.exists_of_lt _ _ hab).2
        omega
      · omega
  have rl : h.Realises g (fun i : Fin n => h.next + (i : ℕ)) (fun j i => C.at' i j = true) := by
    refine ⟨vg, fun i j hij => Fin.ext (Nat.add_left_cancel hij), fun i hi => ?_, fun i => ?_, fun i j => ?_,
      fun a b hab => ?_, fun a b ha hb => ?_, fun a ha => ?_, fun a ha => ?_⟩
    · have : h.next + (i : ℕ) < h.next := hi
      omega
    · show h.next + (i : ℕ) < g.next
      have := i.2; omega
    · rw [lt]
      constructor
      · rintro (h1 | ⟨i', j', h1, h2, h3, h4, h5⟩)
        · have : h.next + (i : ℕ) < h.next := (v.exists_of_lt _ _ h1).1
          omega
        · rw [show (i : ℕ) = j' by omega, show (j : ℕ) = i' by omega]; exact h3
      · exact fun h1 => Or.inr ⟨j, i, j.2, i.2, h1, rfl, rfl⟩
    · rw [lt] at hab
      rcases hab with hab | ⟨i, j, h1, h2, -, rfl, rfl⟩
      · exact Or.inl hab
      · exact Or.inr ⟨⟨j, h2⟩, ⟨i, h1⟩, rfl, rfl⟩
    · rw [lt]
      refine ⟨?_, Or.inl⟩
      rintro (hab | ⟨i, j, h1, h2, -, rfl, rfl⟩)
      · exact hab
      · have : h.next + j < h.next := ha
        omega
    · have : a < h.next := ha
      show a < g.next
      omega
    · have : a < h.next := ha
      rw [mg.label, if_neg (by omega)]
  refine ⟨fun i => h.next + (i : ℕ), g, ?_, rl, fun i => ?_, fun lx => ?_, fun it' as => ?_⟩
  · rw [eq, range'_toFinset_eq, hc]
    have := rl.causetInit v it
    rw [this]
  · have := i.2
    show g.label (h.next + (i : ℕ)) = _
    rw [mg.label, hc, if_pos (by omega), Nat.add_sub_cancel_left]
  · -- links
    have old : ∀ x, ¬ (h.next ≤ x ∧ x < h.next + n) → ∀ y, (g.Lt x y ↔ h.Lt x y) ∧ (g.Lt y x ↔ h.Lt y x) := by
      intro x hx y
      rw [lt, lt]
      refine ⟨⟨?_, Or.inl⟩, ⟨?_, Or.inl⟩⟩
      · rintro (h1 | ⟨i, j, h1, h2, -, rfl, rfl⟩)
        exacts [h1, by omega]
      · rintro (h1 | ⟨i, j, h1, h2, -, rfl, rfl⟩)
        exacts [h1, by omega]
    refine ⟨fun e s he x => ?_, fun e s he x => ?_, fun e => ?_⟩
    · rw [mg.lprec, hc] at he
      by_cases hx : h.next ≤ e ∧ e < h.next + n
      · rw [if_pos hx] at he; cases he
      · rw [if_neg hx] at he
        rw [lx.past e s he x]
        unfold Covers
        rw [(old e hx x).2]
        refine and_congr_right fun hxe => forall_congr' fun c => ?_
        have hx' : ¬ (h.next ≤ x ∧ x < h.next + n) := by
          have : x < h.next := (v.exists_of_lt _ _ hxe).1
          omega
        rw [(old e hx c).2, (old x hx' c).1]
    · rw [mg.lsucc, hc] at he
      by_cases hx : h.next ≤ e ∧ e < h.next + n
      · rw [if_pos hx] at he; cases he
      · rw [if_neg hx] at he
        rw [lx.future e s he x]
        unfold Covers
        rw [(old e hx x).1]
        refine and_congr_right fun hxe => forall_congr' fun c => ?_
        have hx' : ¬ (h.next ≤ x ∧ x < h.next + n) := by
          have : x < h.next := (v.exists_of_lt _ _ hxe).2
          omega
        rw [(old e hx c).1, (old x hx' c).2]
    · rw [mg.lprec, mg.lsucc]
      split
      · simp
      · exact lx.both e
  · obtain ⟨⟨M, h1, h2⟩, -⟩ := C37_given (h := g) it' as (Finset.univ.image fun i : Fin n => h.next + (i : ℕ))
      (List.ofFn fun i : Fin n => h.next + (i : ℕ))
    refine ⟨M, h1, by simpa using h2.1, fun row hr => by simpa using h2.2.1 row hr, fun i j hi hj => ?_⟩
    have := h2.2.2 i j (by simpa using hi) (by simpa using hj)
    simp only [List.getElem_ofFn] at this
    rw [rl.rel ⟨j, hj⟩ ⟨i, hi⟩] at this
    rw [Bool.eq_iff_iff]; exact this

/-- **C14, `FromFutureMatrix`** does the same for the transposed matrix: `C[i, j]` says that `i` precedes `j`. -/
theorem C14_fromFutureMatrix (it : Iter) (n : ℕ) (C : BMat) (hC : IsOrderMatrix n C) (h : Heap) (v : h.Valid) :
    ∃ (ids : Fin n → EId) (h' : Heap), fromFutureMatrix it C h = (.ok (Finset.univ.image ids), h') ∧
      h.Realises h' ids (fun i j => C.at' i j = true) ∧
      (∀ i, h'.label (ids i) = some (.int ((i : ℕ) + 1))) ∧
      (h.LinksExact → h'.LinksExact) ∧
      ∀ it' as, ∃ M, h'.futureMatrix it' as (Finset.univ.image ids) (some (List.ofFn ids)) = .ok M ∧
        M.length = n ∧ (∀ row ∈ M, row.length = n) ∧
        ∀ i j, i < n → j < n → matEntry M i j = C.at' i j := by
  have hT : IsOrderMatrix n C.transpose := ⟨hC.cols, hC.rows, hC.irrefl,
    fun i hi j hj k hk h1 h2 => hC.trans k hk j hj i hi h2 h1⟩
  obtain ⟨ids, h', h1, h2, h3, h4, -⟩ := C14_fromPastMatrix it n C.transpose hT h v
  refine ⟨ids, h', h1, h2, h3, h4, fun it' as => ?_⟩
  obtain ⟨-, M, h5, h6⟩ := C37_given (h := h') it' as (Finset.univ.image ids) (List.ofFn ids)
  refine ⟨M, h5, by simpa using h6.1, fun row hr => by simpa using h6.2.1 row hr, fun i j hi hj => ?_⟩
  have := h6.2.2 i j (by simpa using hi) (by simpa using hj)
  simp only [List.getElem_ofFn] at this
  rw [h2.rel ⟨i, hi⟩ ⟨j, hj⟩] at this
  rw [Bool.eq_iff_iff]; exact this

/-- the matrix of the 3-chain -/
def exMat3 : BMat := ⟨3, 3, fun i j => decide (j < i)⟩

example : IsOrderMatrix 3 exMat3 ∧ exDiamond.Valid :=
  ⟨⟨rfl, rfl, by decide, by decide⟩, exDiamond_valid⟩

/-! ## C15: causal loops -/

theorem initLoop_error (it : Iter) : ∀ (n : ℕ) (s : Finset EId) (x : Err),
    h.initLoop it n s = .error x → x = .outOfFuel := by
  intro n
  induction n with
  | zero => intro s x hx; cases hx; rfl
  | succ n ih =>
    intro s x hx
    rw [initLoop] at hx
    split at hx
    · cases hx
    · exact ih _ _ hx

/-- **C15, what the code detects.** `FromPastMatrix(C)` raises ValueError exactly if `C` has more rows than columns or a causal
loop of length 1 or 2 (`C[i, j]` and `C[j, i]`, possibly i = j). -/
theorem C15_short_loops_partial (it : Iter) (C : BMat) (h : Heap) :
    (fromPastMatrix it C h).1 = .error .valueError ↔
      C.cols < C.rows ∨ ∃ i < C.rows, ∃ j < C.rows, C.at' i j = true ∧ C.at' j i = true := by
  constructor
  · intro he
    by_contra hc
    rw [not_or] at hc
    obtain ⟨g, -, eq⟩ := fromPastMatrix_ok it C h (by omega) (fun k hk hs => hc.2 ⟨k, hk, hs⟩)
    rw [eq] at he
    have := initLoop_error it _ _ _ he
    cases this
  · rintro (h1 | ⟨i, hi, h2⟩)
    · unfold fromPastMatrix; rw [if_pos h1]
    · unfold fromPastMatrix
      by_cases hrc : C.cols < C.rows
      · rw [if_pos hrc]
      · rw [if_neg hrc]
        obtain ⟨e1, -⟩ := newEvents_fresh it (fun i => some (.int ((i : ℤ) + 1))) C.cols 0 h
        rw [← List.range_eq_range'] at e1
        simp only [e1]
        have := loop1_err C h.next (by omega) C.rows 0
          (newEvents it ((List.range C.cols).map (fun (i : ℕ) => (some (.int ((i : ℤ) + 1)), []))) h).2
          (by omega) ⟨i, by omega, by omega, h2⟩
        split
        · next x h1 he =>
          rw [he] at this
          have h3 : x = .valueError := by simpa using this
          rw [h3]
        · next h1 he => rw [he] at this; cases this

/-- both cases occur -/
example : (∃ i < 2, ∃ j < 2, (fun i j : ℕ => decide (i ≠ j)) i j = true ∧ (fun i j : ℕ => decide (i ≠ j)) j i = true) ∧
    ¬ ∃ i < exMat3.rows, ∃ j < exMat3.rows, exMat3.at' i j = true ∧ exMat3.at' j i = true :=
  ⟨⟨0, by decide, 1, by decide, by decide⟩, by decide⟩

/-- what the second loop can change -/
theorem loop2_grow (it : Iter) (S : Finset EId) (L : List EId) : ∀ (g : Heap), (∀ e ∈ L, e ∈ S) →
    (∀ e ∈ S, g.prec e ⊆ S ∧ g.succ e ⊆ S) →
    (pastMatrixLoop2 it L g).next = g.next ∧ (pastMatrixLoop2 it L g).label = g.label ∧
    (∀ x, g.prec x ⊆ (pastMatrixLoop2 it L g).prec x ∧ g.succ x ⊆ (pastMatrixLoop2 it L g).succ x) ∧
    (∀ x ∉ S, (pastMatrixLoop2 it L g).prec x = g.prec x ∧ (pastMatrixLoop2 it L g).succ x = g.succ x) ∧
    (∀ e ∈ S, (pastMatrixLoop2 it L g).prec e ⊆ S ∧ (pastMatrixLoop2 it L g).succ e ⊆ S) := by
  induction L with
  | nil => intro g _ hS; exact ⟨rfl, rfl, fun x => ⟨subset_rfl, subset_rfl⟩, fun x _ => ⟨rfl, rfl⟩, hS⟩
  | cons e es ih =>
    intro g hL hS
    rw [pastMatrixLoop2]
    have mp : ∀ x, x ∈ g.pastOf it (g.prec e) true false ↔ (∃ a ∈ g.prec e, x ∈ g.prec a) ∨ x ∈ g.prec e := by
      intro x
      simp only [pastOf, foldl_union_mem, it.mem, past, Bool.and_false, Bool.false_eq_true, if_false, if_true,
        Finset.mem_union, Finset.notMem_empty, false_or]
    have ms : ∀ (q : EId → Finset EId) (x : EId), x ∈ ({ g with prec := q } : Heap).futureOf it (g.succ e) true false ↔
        (∃ a ∈ g.succ e, x ∈ g.succ a) ∨ x ∈ g.succ e := by
      intro q x
      simp only [futureOf, foldl_union_mem, it.mem, future, Bool.and_false, Bool.false_eq_true, if_false, if_true,
        Finset.mem_union, Finset.notMem_empty, false_or]
    have heS := hL e (by simp)
    obtain ⟨h1, h2, h3, h4, h5⟩ := ih { g with
        prec := update g.prec e (g.pastOf it (g.prec e) true false)
        succ := update g.succ e (({ g with prec := update g.prec e (g.pastOf it (g.prec e) true false) } :
          Heap).futureOf it (g.succ e) true false) } (fun x hx => hL x (by simp [hx])) (by
      intro x hx
      by_cases hxe : x = e
      · subst hxe
        simp only [Function.update_self]
        refine ⟨fun y hy => ?_, fun y hy => ?_⟩
        · rw [mp] at hy
          rcases hy with ⟨a, ha, hy⟩ | hy
          · exact (hS a ((hS x hx).1 ha)).1 hy
          · exact (hS x hx).1 hy
        · rw [ms] at hy
          rcases hy with ⟨a, ha, hy⟩ | hy
          · exact (hS a ((hS x hx).2 ha)).2 hy
          · exact (hS x hx).2 hy
      · simp only [Function.update_of_ne hxe]
        exact hS x hx)
    refine ⟨h1, h2, fun x => ?_, fun x hx => ?_, h5⟩
    · obtain ⟨h6, h7⟩ := h3 x
      by_cases hxe : x = e
      · subst hxe
        simp only [Function.update_self] at h6 h7
        exact ⟨fun y hy => h6 ((mp y).2 (Or.inr hy)), fun y hy => h7 ((ms _ y).2 (Or.inr hy))⟩
      · simp only [Function.update_of_ne hxe] at h6 h7
        exact ⟨h6, h7⟩
    · obtain ⟨h6, h7⟩ := h4 x hx
      have hxe : x ≠ e := by rintro rfl; exact hx heS
      simp only [Function.update_of_ne hxe] at h6 h7
      exact ⟨h6, h7⟩

/-- `Causet(S)` returns at once for a set closed under the stored pasts and futures, consistent state or not. -/
theorem causetInit_closed (it : Iter) (g : Heap) (S : Finset EId) (hS : ∀ e ∈ S, g.prec e ⊆ S ∧ g.succ e ⊆ S) :
    g.causetInit it S = .ok S := by
  have : g.coneOf it S true false = S := by
    ext x
    simp only [coneOf, foldl_union_mem, it.mem, past, future, Bool.and_false, Bool.false_eq_true, if_false, if_true,
      Finset.mem_union, Finset.notMem_empty, false_or]
    constructor
    · rintro (⟨e, he, hx | hx⟩ | hx)
      exacts [(hS e he).1 hx, (hS e he).2 hx, hx]
    · exact Or.inr
  rw [causetInit, initLoop, this]; simp

theorem matHeap_closed {C : BMat} {g : Heap} (mg : MatHeap h C g) (hrc : C.rows ≤ C.cols) :
    ∀ e ∈ (List.range' h.next C.cols).toFinset, g.prec e ⊆ (List.range' h.next C.cols).toFinset ∧
      g.succ e ⊆ (List.range' h.next C.cols).toFinset := by
  intro e he
  rw [List.mem_toFinset, List.mem_range'_1] at he
  refine ⟨fun x hx => ?_, fun x hx => ?_⟩
  · rw [mg.prec, if_pos he] at hx
    split at hx
    · rw [mem_rowSet] at hx
      obtain ⟨j, h1, -, rfl⟩ := hx
      rw [List.mem_toFinset, List.mem_range'_1]; omega
    · simp at hx
  · rw [mg.succ, if_pos he] at hx
    split at hx
    · rw [mem_colSet _ _ _ _ hrc] at hx
      obtain ⟨j, h1, -, rfl⟩ := hx
      rw [List.mem_toFinset, List.mem_range'_1]; omega
    · simp at hx

/-- **C15 is false for longer loops.** If `C` has no loop of length 1 or 2 but does have a longer one, no exception is
raised in any state and for any iteration order; a causet of all the events is returned and `<` is not a strict partial
order any more. -/
theorem C15_refuted (it : Iter) (C : BMat) (h : Heap) (hrc : C.rows ≤ C.cols)
    (hk : ¬ ∃ i < C.rows, ∃ j < C.rows, C.at' i j = true ∧ C.at' j i = true)
    (hl : ∃ k, Relation.TransGen (fun i j => i < C.rows ∧ j < C.rows ∧ C.at' i j = true) k k) :
    ∃ S h', fromPastMatrix it C h = (.ok S, h') ∧ S.card = C.cols ∧ ¬ StrictOrd h'.Lt := by
  obtain ⟨g, mg, eq⟩ := fromPastMatrix_ok it C h hrc (fun k h1 hs => hk ⟨k, h1, hs⟩)
  obtain ⟨-, -, h3, -, h5⟩ := loop2_grow it (List.range' h.next C.cols).toFinset (List.range' h.next C.cols) g
    (fun e he => List.mem_toFinset.2 he) (matHeap_closed mg hrc)
  refine ⟨_, _, eq.trans (by rw [causetInit_closed it _ _ h5]), ?_, fun so => ?_⟩
  · rw [List.toFinset_card_of_nodup (List.nodup_range' ..)]; simp
  · obtain ⟨k, hl⟩ := hl
    have key : ∀ j, Relation.TransGen (fun i j => i < C.rows ∧ j < C.rows ∧ C.at' i j = true) k j →
        (pastMatrixLoop2 it (List.range' h.next C.cols) g).Lt (h.next + j) (h.next + k) := by
      have single : ∀ i j, i < C.rows ∧ j < C.rows ∧ C.at' i j = true →
          (pastMatrixLoop2 it (List.range' h.next C.cols) g).Lt (h.next + j) (h.next + i) := by
        rintro i j ⟨hi, hj, hij⟩
        rw [lt_iff]
        refine (h3 _).1 ?_
        rw [mg.prec, if_pos (by omega), if_pos (by omega), mem_rowSet]
        exact ⟨j, by omega, by rw [Nat.add_sub_cancel_left]; exact hij, rfl⟩
      intro j hj
      induction hj with
      | single h1 => exact single _ _ h1
      | tail _ h1 ih => exact so.trans _ _ _ (single _ _ h1) ih
    exact so.irrefl _ (key k hl)

/-- the loop 0 ← 1 ← 2 ← 0 of length three -/
def exLoop3 : BMat := ⟨3, 3, fun i j => decide (j = (i + 1) % 3)⟩

/-- The hypotheses of the refutation are met by a loop of length three; the result even contains an event that precedes itself. -/
theorem C15_refuted_witness :
    (¬ ∃ i < exLoop3.rows, ∃ j < exLoop3.rows, exLoop3.at' i j = true ∧ exLoop3.at' j i = true) ∧
    (∃ k, Relation.TransGen (fun i j => i < exLoop3.rows ∧ j < exLoop3.rows ∧ exLoop3.at' i j = true) k k) ∧
    (fromPastMatrix Iter.asc exLoop3 Heap.empty).1.toOption = some {0, 1, 2} ∧
    (fromPastMatrix Iter.asc exLoop3 Heap.empty).2.Lt 2 2 :=
  ⟨by decide, ⟨0, .tail (b := 2) (.tail (b := 1) (.single (by decide)) (by decide)) (by decide)⟩, by decide, by decide⟩

/-! ## C16: link matrices -/

/-- one step of the second loop -/
theorem loop2_cons (it : Iter) (e : EId) (es : List EId) (g : Heap) :
    ∃ g', pastMatrixLoop2 it (e :: es) g = pastMatrixLoop2 it es g' ∧ g'.next = g.next ∧ g'.label = g.label ∧
      (∀ x, g'.prec x = if x = e then g.prec e ∪ (g.prec e).biUnion g.prec else g.prec x) ∧
      (∀ x, g'.succ x = if x = e then g.succ e ∪ (g.succ e).biUnion g.succ else g.succ x) := by
  refine ⟨_, rfl, rfl, rfl, fun x => ?_, fun x => ?_⟩
  · by_cases hx : x = e
    · subst hx
      rw [if_pos rfl]
      simp only [Function.update_self]
      ext y
      simp only [pastOf, foldl_union_mem, it.mem, past, Bool.and_false, Bool.false_eq_true, if_false, if_true,
        Finset.mem_union, Finset.notMem_empty, false_or, Finset.mem_biUnion, or_comm]
    · simp [hx]
  · by_cases hx : x = e
    · subst hx
      rw [if_pos rfl]
      simp only [Function.update_self]
      ext y
      simp only [futureOf, foldl_union_mem, it.mem, future, Bool.and_false, Bool.false_eq_true, if_false, if_true,
        Finset.mem_union, Finset.notMem_empty, false_or, Finset.mem_biUnion, or_comm]
    · simp [hx]

/-- `C[i, j]` read as a relation between event numbers: `j` before `i` -/
def matRel (C : BMat) (j i : ℕ) : Prop := i < C.rows ∧ j < C.cols ∧ C.at' i j = true

/-- **C16, the part that holds.** If every row only refers to earlier rows (a causally sorted matrix), links only or not, square
or with rows missing, then `<` on the new events is exactly the transitive closure of the matrix, and a strict partial
order on all events.  `Future`, however, only contains what is reached in one or two steps. -/
theorem C16_sorted_partial (it : Iter) (C : BMat) (h : Heap) (v : h.Valid) (hrc : C.rows ≤ C.cols)
    (hs : ∀ i j, i < C.rows → j < C.cols → C.at' i j = true → j < i) :
    ∃ (ids : Fin C.cols → EId) (h' : Heap), fromPastMatrix it C h = (.ok (Finset.univ.image ids), h') ∧
      Function.Injective ids ∧ (∀ i, ¬ h.Exists (ids i)) ∧
      (∀ i j, h'.Lt (ids j) (ids i) ↔ Relation.TransGen (matRel C) j i) ∧
      StrictOrd h'.Lt ∧ (∀ a b, h.Exists a → h.Exists b → (h'.Lt a b ↔ h.Lt a b)) ∧
      (∀ i j, ids i ∈ h'.future (ids j) ↔ matRel C j i ∨ ∃ k, matRel C j k ∧ matRel C k i) := by
  have hm : ∀ {j i}, matRel C j i → j < i := fun hji => hs _ _ hji.1 hji.2.1 hji.2.2
  have htm : ∀ {j i}, Relation.TransGen (matRel C) j i → j < i := by
    intro j i hji
    induction hji with
    | single h1 => exact hm h1
    | tail _ h1 ih => exact ih.trans (hm h1)
  obtain ⟨g, mg, eq⟩ := fromPastMatrix_ok it C h hrc (by
    rintro k hk ⟨j, hj, h1, h2⟩
    have := hs k j hk (by omega) h1
    have := hs j k hj (by omega) h2
    omega)
  obtain ⟨h1, h2, h3, h4, h5⟩ := loop2_grow it (List.range' h.next C.cols).toFinset (List.range' h.next C.cols) g
    (fun e he => List.mem_toFinset.2 he) (matHeap_closed mg hrc)
  -- membership before the loop
  have gp : ∀ i < C.cols, ∀ x, x ∈ g.prec (h.next + i) ↔ ∃ j, matRel C j i ∧ x = h.next + j := by
    intro i hi x
    rw [mg.prec, if_pos (by omega), Nat.add_sub_cancel_left]
    split
    · rw [mem_rowSet]
      constructor
      · rintro ⟨j, a, b, c⟩; exact ⟨j, ⟨by omega, a, b⟩, c⟩
      · rintro ⟨j, ⟨_, a, b⟩, c⟩; exact ⟨j, a, b, c⟩
    · simp only [Finset.notMem_empty, false_iff]
      rintro ⟨j, ⟨a, _, _⟩, _⟩; omega
  have gs : ∀ j < C.cols, ∀ x, x ∈ g.succ (h.next + j) ↔ ∃ i, matRel C j i ∧ x = h.next + i := by
    intro j hj x
    rw [mg.succ, if_pos (by omega), Nat.add_sub_cancel_left]
    split
    · rw [mem_colSet _ _ _ _ hrc]
      constructor
      · rintro ⟨i, a, b, c⟩; exact ⟨i, ⟨a, hj, b⟩, c⟩
      · rintro ⟨i, ⟨a, _, b⟩, c⟩; exact ⟨i, a, b, c⟩
    · simp only [Finset.notMem_empty, false_iff]
      rintro ⟨i, hji, _⟩
      have := hm hji
      have := hji.1
      omega
  -- the loop
  have loop : ∀ (n k : ℕ) (q : Heap), k + n = C.cols →
      (∀ i < C.cols, ∀ x, x ∈ q.prec (h.next + i) ↔
        ∃ j, (if i < k then Relation.TransGen (matRel C) j i else matRel C j i) ∧ x = h.next + j) →
      (∀ j < C.cols, ∀ x, x ∈ q.succ (h.next + j) ↔
        ∃ i, (if j < k then (matRel C j i ∨ ∃ l, matRel C j l ∧ matRel C l i) else matRel C j i) ∧ x = h.next + i) →
      (∀ i < C.cols, ∀ x, x ∈ (pastMatrixLoop2 it (List.range' (h.next + k) n) q).prec (h.next + i) ↔
        ∃ j, Relation.TransGen (matRel C) j i ∧ x = h.next + j) ∧
      (∀ j < C.cols, ∀ x, x ∈ (pastMatrixLoop2 it (List.range' (h.next + k) n) q).succ (h.next + j) ↔
        ∃ i, (matRel C j i ∨ ∃ l, matRel C j l ∧ matRel C l i) ∧ x = h.next + i) := by
    intro n
    induction n with
    | zero =>
      intro k q hk hp hs
      refine ⟨fun i hi x => ?_, fun j hj x => ?_⟩
      · have := hp i hi x; simp only [if_pos (show i < k by omega)] at this; exact this
      · have := hs j hj x
        simp only [if_pos (show j < k by omega)] at this
        exact this
    | succ n ih =>
      intro k q hk hp hs'
      rw [List.range'_succ]
      obtain ⟨q', e1, -, -, e2, e3⟩ := loop2_cons it (h.next + k) (List.range' (h.next + k + 1) n) q
      rw [e1]
      refine ih (k + 1) q' (by omega) (fun i hi x => ?_) (fun j hj x => ?_)
      · rw [e2]
        by_cases hik : i = k
        · subst hik
          simp only [if_pos (show i < i + 1 by omega)]
          rw [if_true, Finset.mem_union, Finset.mem_biUnion]
          constructor
          · rintro (hx | ⟨a, ha, hx⟩)
            · obtain ⟨j, hj, rfl⟩ := (hp i hi x).1 hx
              rw [if_neg (by omega)] at hj
              exact ⟨j, .single hj, rfl⟩
            · obtain ⟨l, hl, rfl⟩ := (hp i hi a).1 ha
              rw [if_neg (by omega)] at hl
              obtain ⟨j, hj, rfl⟩ := (hp l hl.2.1 x).1 hx
              rw [if_pos (hm hl)] at hj
              exact ⟨j, hj.tail hl, rfl⟩
          · rintro ⟨j, hj, rfl⟩
            rcases Relation.TransGen.tail'_iff.1 hj with ⟨l, hl1, hl2⟩
            rcases (Relation.reflTransGen_iff_eq_or_transGen.1 hl1) with rfl | hl1
            · refine Or.inl ((hp i hi _).2 ⟨l, ?_, rfl⟩)
              rw [if_neg (by omega)]; exact hl2
            · refine Or.inr ⟨h.next + l, (hp i hi _).2 ⟨l, ?_, rfl⟩, (hp l hl2.2.1 _).2 ⟨j, ?_, rfl⟩⟩
              · rw [if_neg (by omega)]; exact hl2
              · rw [if_pos (hm hl2)]; exact hl1
        · rw [if_neg (by omega), hp i hi]
          have : (i < k ↔ i < k + 1) := by omega
          simp only [this]
      · rw [e3]
        by_cases hjk : j = k
        · subst hjk
          simp only [if_pos (show j < j + 1 by omega)]
          rw [if_true, Finset.mem_union, Finset.mem_biUnion]
          constructor
          · rintro (hx | ⟨a, ha, hx⟩)
            · obtain ⟨i, hi, rfl⟩ := (hs' j hj x).1 hx
              rw [if_neg (by omega)] at hi
              exact ⟨i, Or.inl hi, rfl⟩
            · obtain ⟨l, hl, rfl⟩ := (hs' j hj a).1 ha
              rw [if_neg (by omega)] at hl
              obtain ⟨i, hi, rfl⟩ := (hs' l (by have := hl.1; omega) x).1 hx
              rw [if_neg (by have := hm hl; omega)] at hi
              exact ⟨i, Or.inr ⟨l, hl, hi⟩, rfl⟩
          · rintro ⟨i, hi | ⟨l, hl1, hl2⟩, rfl⟩
            · refine Or.inl ((hs' j hj _).2 ⟨i, ?_, rfl⟩)
              rw [if_neg (by omega)]; exact hi
            · refine Or.inr ⟨h.next + l, (hs' j hj _).2 ⟨l, ?_, rfl⟩, (hs' l (by have := hl1.1; omega) _).2 ⟨i, ?_, rfl⟩⟩
              · rw [if_neg (by omega)]; exact hl1
              · rw [if_neg (by have := hm hl1; omega)]; exact hl2
        · rw [if_neg (by omega), hs' j hj]
          have : (j < k ↔ j < k + 1) := by omega
          simp only [this]
  obtain ⟨fp, fs⟩ := loop C.cols 0 g (by omega) (fun i hi x => by
      simp only [if_neg (show ¬ i < 0 by omega)]; exact gp i hi x) (fun j hj x => by
      simp only [if_neg (show ¬ j < 0 by omega)]; exact gs j hj x)
  rw [Nat.add_zero] at fp fs
  -- the order
  have lt : ∀ a b, (pastMatrixLoop2 it (List.range' h.next C.cols) g).Lt a b ↔ h.Lt a b ∨
      ∃ j i, i < C.cols ∧ Relation.TransGen (matRel C) j i ∧ a = h.next + j ∧ b = h.next + i := by
    intro a b
    rw [lt_iff]
    by_cases hb : h.next ≤ b ∧ b < h.next + C.cols
    · have := fp (b - h.next) (by omega) a
      rw [show h.next + (b - h.next) = b by omega] at this
      rw [this]
      constructor
      · rintro ⟨j, hj, rfl⟩; exact Or.inr ⟨j, b - h.next, by omega, hj, rfl, by omega⟩
      · rintro (h1 | ⟨j, i, hi, hj, rfl, rfl⟩)
        · have : b < h.next := (v.exists_of_lt _ _ h1).2
          omega
        · exact ⟨j, by rw [Nat.add_sub_cancel_left]; exact hj, rfl⟩
    · rw [(h4 b (by rw [List.mem_toFinset, List.mem_range'_1]; exact hb)).1, mg.prec, if_neg hb, v.mem_prec]
      refine ⟨Or.inl, ?_⟩
      rintro (h1 | ⟨j, i, hi, hj, rfl, rfl⟩)
      · exact h1
      · omega
  refine ⟨fun i => h.next + (i : ℕ), pastMatrixLoop2 it (List.range' h.next C.cols) g, ?_,
    fun i j hij => Fin.ext (Nat.add_left_cancel hij), fun i hi => ?_,
    fun i j => ?_, ⟨fun a ha => ?_, fun a b c hab hbc => ?_⟩, fun a b ha hb => ?_, fun i j => ?_⟩
  · rw [eq, causetInit_closed it _ _ h5, range'_toFinset_eq]
  · have : h.next + (i : ℕ) < h.next := hi
    omega
  · rw [lt]
    constructor
    · rintro (h1 | ⟨j', i', hi', hj', h6, h7⟩)
      · have : h.next + (i : ℕ) < h.next := (v.exists_of_lt _ _ h1).2
        omega
      · simp only at h6 h7
        rw [show (j : ℕ) = j' by omega, show (i : ℕ) = i' by omega]; exact hj'
    · exact fun h1 => Or.inr ⟨j, i, i.2, h1, rfl, rfl⟩
  · rw [lt] at ha
    rcases ha with ha | ⟨j, i, hi, hj, h6, h7⟩
    · exact v.irrefl a ha
    · have := htm hj
      omega
  · rw [lt] at hab hbc ⊢
    rcases hab with hab | ⟨j, i, hi, hj, rfl, rfl⟩ <;> rcases hbc with hbc | ⟨j', i', hi', hj', h6, rfl⟩
    · exact Or.inl (v.trans hab hbc)
    · have : b < h.next := (v.exists_of_lt _ _ hab).2
      omega
    · have : h.next + i < h.next := (v.exists_of_lt _ _ hbc).1
      omega
    · have : i = j' := by omega
      subst this
      exact Or.inr ⟨j, i', hi', hj.trans hj', rfl, rfl⟩
  · rw [lt]
    refine ⟨?_, Or.inl⟩
    rintro (hab | ⟨j, i, hi, hj, rfl, rfl⟩)
    · exact hab
    · have : h.next + j < h.next := ha
      omega
  · have := fs j j.2 (h.next + (i : ℕ))
    show h.next + (i : ℕ) ∈ Heap.succ _ (h.next + (j : ℕ)) ↔ _
    rw [this]
    constructor
    · rintro ⟨i', h6, h7⟩; rw [show (i : ℕ) = i' by omega]; exact h6
    · exact fun h6 => ⟨i, h6, rfl⟩

/-- the links of the 4-chain -/
def exLinks4 : BMat := ⟨4, 4, fun i j => decide (i = j + 1)⟩

/-- one row, three columns: event 2 precedes event 0 -/
def exWide : BMat := ⟨1, 3, fun i j => decide (i = 0 ∧ j = 2)⟩

/-- the links of the 4-chain listed against the causal order: 0 is the last event -/
def exLinks4Rev : BMat := ⟨4, 4, fun i j => decide (j = i + 1)⟩

example : exLinks4.rows ≤ exLinks4.cols ∧
    (∀ i j, i < exLinks4.rows → j < exLinks4.cols → exLinks4.at' i j = true → j < i) ∧ exDiamond.Valid :=
  ⟨by decide, fun i j _ _ hij => by simp only [exLinks4, decide_eq_true_eq] at hij; omega, exDiamond_valid⟩

/-- **C16 is false in general**: from the links of a chain of four events the first event precedes the last, but
the last is not in the first's `Future`; with rows missing the event 2 precedes 0 but its `Future` is empty; from links
listed against the causal order the result is not even transitive. -/
theorem C16_refuted :
    ((fromPastMatrix Iter.asc exLinks4 Heap.empty).1.toOption = some {0, 1, 2, 3} ∧
      (fromPastMatrix Iter.asc exLinks4 Heap.empty).2.Lt 0 3 ∧
      3 ∉ (fromPastMatrix Iter.asc exLinks4 Heap.empty).2.future 0) ∧
    ((fromPastMatrix Iter.asc exWide Heap.empty).1.toOption = some {0, 1, 2} ∧
      (fromPastMatrix Iter.asc exWide Heap.empty).2.Lt 2 0 ∧
      (fromPastMatrix Iter.asc exWide Heap.empty).2.future 2 = ∅) ∧
    ((fromPastMatrix Iter.asc exLinks4Rev Heap.empty).1.toOption = some {0, 1, 2, 3} ∧
      (fromPastMatrix Iter.asc exLinks4Rev Heap.empty).2.Lt 3 1 ∧
      (fromPastMatrix Iter.asc exLinks4Rev Heap.empty).2.Lt 1 0 ∧
      ¬ (fromPastMatrix Iter.asc exLinks4Rev Heap.empty).2.Lt 3 0) := by
  decide

end Causets
