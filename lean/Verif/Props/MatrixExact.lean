import Verif.Props.Matrix

/-! # C16: what `FromPastMatrix` makes of any matrix -/

namespace Causets

open Heap
open Function (update)

variable {h : Heap}

/-- **Specification.** What the single pass of completion in order of the indices makes of the entries `R i j` ("row i
mentions j"): from `i` go down along entries to smaller and smaller indices, then take one entry, or one entry to a
larger index and one entry more. -/
def OnePass (R : ℕ → ℕ → Prop) (i j : ℕ) : Prop :=
  ∃ k, Relation.ReflTransGen (fun a b => R a b ∧ b < a) i k ∧ (R k j ∨ ∃ x, k < x ∧ R k x ∧ R x j)

/-- row `i` of the matrix mentions `j` -/
def InRow (C : BMat) (i j : ℕ) : Prop := i < C.rows ∧ j < C.cols ∧ C.at' i j = true

/-- column `i` of the matrix mentions `j`; columns without a row of the same number are not read -/
def InColumn (C : BMat) (i j : ℕ) : Prop := i < C.rows ∧ j < C.rows ∧ C.at' j i = true

theorem onePass_iff (R : ℕ → ℕ → Prop) (i j : ℕ) :
    OnePass R i j ↔ R i j ∨ ∃ k, R i k ∧ (if k < i then OnePass R k j else R k j) := by
  constructor
  · rintro ⟨k, hk, h1⟩
    rcases Relation.ReflTransGen.cases_head hk with rfl | ⟨b, ⟨h2, h3⟩, h4⟩
    · rcases h1 with h1 | ⟨x, h2, h3, h4⟩
      · exact Or.inl h1
      · exact Or.inr ⟨x, h3, by rw [if_neg (by omega)]; exact h4⟩
    · exact Or.inr ⟨b, h2, by rw [if_pos h3]; exact ⟨k, h4, h1⟩⟩
  · rintro (h1 | ⟨k, h1, h2⟩)
    · exact ⟨i, .refl, Or.inl h1⟩
    · split at h2
      · next hk =>
        obtain ⟨l, hl, h3⟩ := h2
        exact ⟨l, .head ⟨h1, hk⟩ hl, h3⟩
      · next hk =>
        rcases Nat.lt_or_ge i k with hik | hik
        · exact ⟨i, .refl, Or.inr ⟨k, hik, h1, h2⟩⟩
        · have : k = i := by omega
          subst this
          exact ⟨k, .refl, Or.inl h2⟩

/-- one of the two completions, in numbers -/
theorem loop2_onePass (it : Iter) (b N : ℕ) (R S : ℕ → ℕ → Prop) (hR : ∀ i j, R i j → j < N) (hS : ∀ i j, S i j → j < N) :
    ∀ (n k : ℕ) (q : Heap), k + n = N →
      (∀ i < N, ∀ x, x ∈ q.prec (b + i) ↔ ∃ j, (if i < k then OnePass R i j else R i j) ∧ x = b + j) →
      (∀ i < N, ∀ x, x ∈ q.succ (b + i) ↔ ∃ j, (if i < k then OnePass S i j else S i j) ∧ x = b + j) →
      (∀ i < N, ∀ x, x ∈ (pastMatrixLoop2 it (List.range' (b + k) n) q).prec (b + i) ↔ ∃ j, OnePass R i j ∧ x = b + j) ∧
      (∀ i < N, ∀ x, x ∈ (pastMatrixLoop2 it (List.range' (b + k) n) q).succ (b + i) ↔ ∃ j, OnePass S i j ∧ x = b + j) := by
  have step : ∀ (T : ℕ → ℕ → Prop) (_ : ∀ i j, T i j → j < N) (f f' : EId → Finset EId) (k : ℕ) (_ : k < N),
      (∀ i < N, ∀ x, x ∈ f (b + i) ↔ ∃ j, (if i < k then OnePass T i j else T i j) ∧ x = b + j) →
      (∀ x, f' x = if x = b + k then f (b + k) ∪ (f (b + k)).biUnion f else f x) →
      ∀ i < N, ∀ x, x ∈ f' (b + i) ↔ ∃ j, (if i < k + 1 then OnePass T i j else T i j) ∧ x = b + j := by
    intro T hT f f' k hk hf hf' i hi x
    rw [hf']
    by_cases hik : i = k
    · subst hik
      simp only [if_pos (show i < i + 1 by omega)]
      rw [if_true, Finset.mem_union, Finset.mem_biUnion]
      constructor
      · rintro (hx | ⟨a, ha, hx⟩)
        · obtain ⟨j, hj, rfl⟩ := (hf i hi x).1 hx
          rw [if_neg (by omega)] at hj
          exact ⟨j, (onePass_iff T i j).2 (Or.inl hj), rfl⟩
        · obtain ⟨l, hl, rfl⟩ := (hf i hi a).1 ha
          rw [if_neg (by omega)] at hl
          obtain ⟨j, hj, rfl⟩ := (hf l (hT _ _ hl) x).1 hx
          exact ⟨j, (onePass_iff T i j).2 (Or.inr ⟨l, hl, hj⟩), rfl⟩
      · rintro ⟨j, hj, rfl⟩
        rcases (onePass_iff T i j).1 hj with hj | ⟨l, hl, hj⟩
        · refine Or.inl ((hf i hi _).2 ⟨j, ?_, rfl⟩)
          rw [if_neg (by omega)]; exact hj
        · refine Or.inr ⟨b + l, (hf i hi _).2 ⟨l, ?_, rfl⟩, (hf l (hT _ _ hl) _).2 ⟨j, hj, rfl⟩⟩
          rw [if_neg (by omega)]; exact hl
    · rw [if_neg (by omega), hf i hi]
      have : (i < k ↔ i < k + 1) := by omega
      simp only [this]
  intro n
  induction n with
  | zero =>
    intro k q hk hp hs
    refine ⟨fun i hi x => ?_, fun j hj x => ?_⟩
    · have := hp i hi x; simp only [if_pos (show i < k by omega)] at this; exact this
    · have := hs j hj x; simp only [if_pos (show j < k by omega)] at this; exact this
  | succ n ih =>
    intro k q hk hp hs
    rw [List.range'_succ]
    obtain ⟨q', e1, -, -, e2, e3⟩ := loop2_cons it (b + k) (List.range' (b + k + 1) n) q
    rw [e1]
    exact ih (k + 1) q' (by omega) (step R hR q.prec q'.prec k (by omega) hp e2)
      (step S hS q.succ q'.succ k (by omega) hs e3)

/-- **C16, exactly.** For every matrix without loops of length 1 or 2 and with at most as many rows as columns, in every
state and for every iteration order, `FromPastMatrix` returns one new event for each column; `<` and `Past` among them are the one-pass
completion of the rows, `Future` is the one-pass completion of the columns (of those that have a row), and nothing else is related to them. -/
theorem C16_exact (it : Iter) (C : BMat) (h : Heap) (hrc : C.rows ≤ C.cols)
    (hk : ¬ ∃ i < C.rows, ∃ j < C.rows, C.at' i j = true ∧ C.at' j i = true) :
    ∃ (ids : Fin C.cols → EId) (h' : Heap), fromPastMatrix it C h = (.ok (Finset.univ.image ids), h') ∧
      Function.Injective ids ∧ (∀ i, ¬ h.Exists (ids i)) ∧
      (∀ i, h'.label (ids i) = some (.int ((i : ℕ) + 1))) ∧
      (∀ i j, h'.Lt (ids j) (ids i) ↔ OnePass (InRow C) i j) ∧
      (∀ i j, ids j ∈ h'.future (ids i) ↔ OnePass (InColumn C) i j) ∧
      (∀ i x, (x ∈ h'.past (ids i) ∨ x ∈ h'.future (ids i)) → ∃ j, x = ids j) ∧
      (∀ x, h.Exists x → h'.past x = h.past x ∧ h'.future x = h.future x) := by
  obtain ⟨g, mg, eq⟩ := fromPastMatrix_ok it C h hrc (fun k h1 hs => hk ⟨k, h1, hs⟩)
  obtain ⟨h1, h2, h3, h4, h5⟩ := loop2_grow it (List.range' h.next C.cols).toFinset (List.range' h.next C.cols) g
    (fun e he => List.mem_toFinset.2 he) (matHeap_closed mg hrc)
  have gp : ∀ i < C.cols, ∀ x, x ∈ g.prec (h.next + i) ↔ ∃ j, InRow C i j ∧ x = h.next + j := by
    intro i hi x
    rw [mg.prec, if_pos (by omega), Nat.add_sub_cancel_left]
    split
    · rw [mem_rowSet]
      constructor
      · rintro ⟨j, a, b, c⟩; exact ⟨j, ⟨by omega, a, b⟩, c⟩
      · rintro ⟨j, ⟨_, a, b⟩, c⟩; exact ⟨j, a, b, c⟩
    · simp only [Finset.notMem_empty, false_iff]
      rintro ⟨j, ⟨a, _, _⟩, _⟩; omega
  have gs : ∀ i < C.cols, ∀ x, x ∈ g.succ (h.next + i) ↔ ∃ j, InColumn C i j ∧ x = h.next + j := by
    intro j hj x
    rw [mg.succ, if_pos (by omega), Nat.add_sub_cancel_left]
    split
    · rw [mem_colSet _ _ _ _ hrc]
      constructor
      · rintro ⟨i, a, b, c⟩; exact ⟨i, ⟨by omega, a, b⟩, c⟩
      · rintro ⟨i, ⟨_, a, b⟩, c⟩; exact ⟨i, a, b, c⟩
    · simp only [Finset.notMem_empty, false_iff]
      rintro ⟨i, ⟨a, _, _⟩, _⟩; omega
  obtain ⟨fp, fs⟩ := loop2_onePass it h.next C.cols (InRow C) (InColumn C) (fun i j hij => hij.2.1)
    (fun i j hij => lt_of_lt_of_le hij.2.1 hrc) C.cols 0 g (by omega)
    (fun i hi x => by simp only [if_neg (show ¬ i < 0 by omega)]; exact gp i hi x)
    (fun i hi x => by simp only [if_neg (show ¬ i < 0 by omega)]; exact gs i hi x)
  rw [Nat.add_zero] at fp fs
  have nm : ∀ x, h.Exists x → x ∉ (List.range' h.next C.cols).toFinset := by
    intro x hx
    rw [List.mem_toFinset, List.mem_range'_1]
    have : x < h.next := hx
    omega
  refine ⟨fun i => h.next + (i : ℕ), pastMatrixLoop2 it (List.range' h.next C.cols) g, ?_,
    fun i j hij => Fin.ext (Nat.add_left_cancel hij), fun i hi => ?_, fun i => ?_, fun i j => ?_, fun i j => ?_,
    fun i x hx => ?_, fun x hx => ?_⟩
  · rw [eq, causetInit_closed it _ _ h5, range'_toFinset_eq]
  · have : h.next + (i : ℕ) < h.next := hi
    omega
  · have := i.2
    simp only [h2, mg.label]
    rw [if_pos (by omega), Nat.add_sub_cancel_left]
  · rw [lt_iff]
    show h.next + (j : ℕ) ∈ Heap.prec _ (h.next + (i : ℕ)) ↔ _
    rw [fp i i.2]
    constructor
    · rintro ⟨j', h6, h7⟩; rw [show (j : ℕ) = j' by omega]; exact h6
    · exact fun h6 => ⟨j, h6, rfl⟩
  · show h.next + (j : ℕ) ∈ Heap.succ _ (h.next + (i : ℕ)) ↔ _
    rw [fs i i.2]
    constructor
    · rintro ⟨j', h6, h7⟩; rw [show (j : ℕ) = j' by omega]; exact h6
    · exact fun h6 => ⟨j, h6, rfl⟩
  · have hm : h.next + (i : ℕ) ∈ (List.range' h.next C.cols).toFinset := by
      have := i.2
      rw [List.mem_toFinset, List.mem_range'_1]; omega
    have hx' : x ∈ (List.range' h.next C.cols).toFinset := by
      rcases hx with hx | hx
      · exact (h5 _ hm).1 hx
      · exact (h5 _ hm).2 hx
    rw [List.mem_toFinset, List.mem_range'_1] at hx'
    exact ⟨⟨x - h.next, by omega⟩, by simp only; omega⟩
  · have hx' : x < h.next := hx
    obtain ⟨e1, e2⟩ := h4 x (nm x hx)
    constructor
    · show Heap.prec _ x = h.prec x
      rw [e1, mg.prec, if_neg (by omega)]
    · show Heap.succ _ x = h.succ x
      rw [e2, mg.succ, if_neg (by omega)]


/-- the links of a chain of four events listed against the causal order: no short loops, and event 3, which is below 1, is not in the one-pass completion of row 0 -/
example : exLinks4Rev.rows ≤ exLinks4Rev.cols ∧
    (¬ ∃ i < exLinks4Rev.rows, ∃ j < exLinks4Rev.rows, exLinks4Rev.at' i j = true ∧ exLinks4Rev.at' j i = true) ∧
    OnePass (InRow exLinks4Rev) 0 2 ∧ ¬ OnePass (InRow exLinks4Rev) 0 3 := by
  refine ⟨by decide, by decide, ⟨0, .refl, Or.inr ⟨1, by decide, ⟨by decide, by decide, by decide⟩, by decide, by decide, by decide⟩⟩, ?_⟩
  rw [onePass_iff]
  rintro (h1 | ⟨k, h1, h2⟩)
  · exact absurd h1.2.2 (by decide)
  · rw [if_neg (by omega)] at h2
    have hk := h1.2.2
    have hk2 := h2.2.2
    simp only [exLinks4Rev, decide_eq_true_eq] at hk hk2
    omega

theorem loop1_old (C : BMat) (b : ℕ) (hrc : C.rows ≤ C.cols) : ∀ (n i : ℕ) (g : Heap), i + n ≤ C.rows →
    ∀ x, x < b →
    let g' := (pastMatrixLoop1 C (List.range' b C.cols) n i g).2
    g'.next = g.next ∧ g'.label x = g.label x ∧ g'.prec x = g.prec x ∧ g'.succ x = g.succ x ∧ g'.lprec x = g.lprec x ∧ g'.lsucc x = g.lsucc x := by
  intro n
  induction n with
  | zero => intro i g _ x _; exact ⟨rfl, rfl, rfl, rfl, rfl, rfl⟩
  | succ n ih =>
    intro i g hi x hx
    rw [loop1_succ C b n i g (by omega)]
    split
    · exact ⟨rfl, rfl, rfl, rfl, rfl, rfl⟩
    · obtain ⟨h1, h2, h3, h4, h5, h6⟩ := ih (i + 1) { g with
        prec := update g.prec (b + i) (rowSet C b i), succ := update g.succ (b + i) (colSet C b i) } (by omega) x hx
      refine ⟨h1, h2, ?_, ?_, h5, h6⟩
      · rw [h3]; exact Function.update_of_ne (by omega) ..
      · rw [h4]; exact Function.update_of_ne (by omega) ..

/-- **C15, exceptions do no harm.** Whenever `FromPastMatrix` raises ValueError, everything about the events that existed before the call is as before (the events created
by the call are only known to each other). -/
theorem C15_raise_harmless (it : Iter) (C : BMat) (h : Heap) (hr : (fromPastMatrix it C h).1 = .error .valueError) (x : EId) (hx : h.Exists x) :
    let h' := (fromPastMatrix it C h).2
    h'.Exists x ∧ h'.label x = h.label x ∧ h'.past x = h.past x ∧ h'.future x = h.future x ∧ h'.lprec x = h.lprec x ∧ h'.lsucc x = h.lsucc x := by
  have hx' : x < h.next := hx
  by_cases hrc : C.cols < C.rows
  · simp only [fromPastMatrix, if_pos hrc, true_and]
    exact ⟨hx, trivial⟩
  · obtain ⟨e1, f1⟩ := newEvents_fresh it (fun i => some (.int ((i : ℤ) + 1))) C.cols 0 h
    rw [← List.range_eq_range'] at e1 f1
    have key := loop1_old C h.next (by omega) C.rows 0
      (newEvents it ((List.range C.cols).map (fun (i : ℕ) => (some (.int ((i : ℤ) + 1)), []))) h).2 (by omega) x hx'
    have hnot : ¬ (h.next ≤ x ∧ x < h.next + C.cols) := by omega
    simp only [f1.label, f1.prec, f1.succ, f1.lprec, f1.lsucc, f1.next, if_neg hnot] at key
    unfold fromPastMatrix at hr ⊢
    rw [if_neg hrc] at hr ⊢
    simp only [e1] at hr ⊢
    rcases hq : pastMatrixLoop1 C (List.range' h.next C.cols) C.rows 0
      (newEvents it ((List.range C.cols).map (fun (i : ℕ) => (some (.int ((i : ℤ) + 1)), []))) h).2 with ⟨r, g⟩
    rw [hq] at key hr
    cases r with
    | error y =>
      obtain ⟨h1, h2, h3, h4, h5, h6⟩ := key
      refine ⟨?_, h2, h3, h4, h5, h6⟩
      have h1' : g.next = h.next + C.cols := h1
      show x < g.next
      omega
    | ok u =>
      exfalso
      dsimp only at hr
      have := initLoop_error it _ _ _ hr
      cases this

example : (fromPastMatrix Iter.asc ⟨2, 2, fun i j => decide (i ≠ j)⟩ exDiamond).1 = .error .valueError ∧ exDiamond.Exists 3 :=
  ⟨(C15_short_loops_partial _ _ _).2 (Or.inr ⟨0, by decide, 1, by decide, by decide⟩), by decide⟩

end Causets
