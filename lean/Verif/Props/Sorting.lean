import Verif.Props.Components

/-! # C36: `sortedByLabels`, `sortedByCausality`; C37: causal and link matrices -/

namespace Causets

open Heap

variable {h : Heap}

/-- `l` lists the events of `s`, each once. -/
def Lists (s : Finset ℕ) (l : List ℕ) : Prop := l.Nodup ∧ ∀ x, x ∈ l ↔ x ∈ s

/-- `l` lists the events of `s`, each once, and no event stands after one of its future events. -/
def LinearExtension (lt : ℕ → ℕ → Prop) (s : Finset ℕ) (l : List ℕ) : Prop :=
  Lists s l ∧ l.Pairwise (fun a b => ¬ lt b a)

/-! ## the exchange loop -/

/-- what the inner loop does to the elements before position `i`, carrying the element at position `i` -/
def carry (h : Heap) (x : EId) : List EId → List EId
  | [] => [x]
  | y :: ys => if h.lt x y then x :: carry h y ys else y :: carry h x ys

theorem carry_perm (x : EId) (l : List EId) : (carry h x l).Perm (x :: l) := by
  induction l generalizing x with
  | nil => exact .refl _
  | cons y ys ih =>
    unfold carry
    split
    · exact (ih y).cons x
    · exact ((ih x).cons y).trans (List.Perm.swap _ _ _)

theorem carry_sorted (v : h.Valid) (x : EId) (l : List EId) (hl : l.Pairwise (fun a b => ¬ h.Lt b a)) :
    (carry h x l).Pairwise (fun a b => ¬ h.Lt b a) := by
  induction l generalizing x with
  | nil => simp [carry]
  | cons y ys ih =>
    rw [List.pairwise_cons] at hl
    unfold carry
    split
    · next hxy =>
      refine List.pairwise_cons.2 ⟨fun z hz => ?_, ih y hl.2⟩
      rw [(carry_perm y ys).mem_iff, List.mem_cons] at hz
      rcases hz with rfl | hz
      · exact v.asymm hxy
      · exact fun hzx => hl.1 z hz (v.trans hzx hxy)
    · next hxy =>
      refine List.pairwise_cons.2 ⟨fun z hz => ?_, ih x hl.2⟩
      rw [(carry_perm x ys).mem_iff, List.mem_cons] at hz
      rcases hz with rfl | hz
      · exact hxy
      · exact hl.1 z hz

theorem inner_eq (ys : List EId) : ∀ (a : List EId) (x : EId) (rest : List EId),
    (List.range' a.length ys.length).foldl (h.swapStep (a.length + ys.length)) (a ++ ys ++ x :: rest) =
      a ++ carry h x ys ++ rest := by
  induction ys with
  | nil => intro a x rest; simp [carry]
  | cons y ys ih =>
    intro a x rest
    rw [List.length_cons, List.range'_succ, List.foldl_cons]
    have e1 : (a ++ y :: ys ++ x :: rest).getD (a.length + (ys.length + 1)) 0 = x := by
      simp [List.getD]
    have e2 : (a ++ y :: ys ++ x :: rest).getD a.length 0 = y := by simp [List.getD]
    have e3 : h.swapStep (a.length + (ys.length + 1)) (a ++ y :: ys ++ x :: rest) a.length =
        if h.lt x y then (a ++ [x]) ++ ys ++ y :: rest else (a ++ [y]) ++ ys ++ x :: rest := by
      unfold swapStep
      rw [e1, e2]
      split
      · have : (a ++ y :: ys ++ x :: rest).set (a.length + (ys.length + 1)) y =
            a ++ y :: (ys ++ y :: rest) := by
          simp [List.set_append]
        rw [this]
        simp [List.set_append]
      · simp
    rw [e3]
    unfold carry
    split
    · have := ih (a ++ [x]) y rest
      simp only [List.length_append, List.length_singleton] at this
      rw [show a.length + (ys.length + 1) = a.length + 1 + ys.length by omega]
      rw [this]; simp
    · have := ih (a ++ [y]) x rest
      simp only [List.length_append, List.length_singleton] at this
      rw [show a.length + (ys.length + 1) = a.length + 1 + ys.length by omega]
      rw [this]; simp

theorem outer_spec (v : h.Valid) (rest : List EId) : ∀ (pre : List EId),
    pre.Pairwise (fun a b => ¬ h.Lt b a) →
    ((List.range' pre.length rest.length).foldl
        (fun l i => (List.range i).foldl (h.swapStep i) l) (pre ++ rest)).Perm (pre ++ rest) ∧
    ((List.range' pre.length rest.length).foldl
        (fun l i => (List.range i).foldl (h.swapStep i) l) (pre ++ rest)).Pairwise
        (fun a b => ¬ h.Lt b a) := by
  induction rest with
  | nil => intro pre hp; simpa using hp
  | cons x rest ih =>
    intro pre hp
    rw [List.length_cons, List.range'_succ, List.foldl_cons]
    have := inner_eq (h := h) pre [] x rest
    simp only [List.length_nil, Nat.zero_add, List.nil_append] at this
    rw [List.range_eq_range', this]
    have hl : (carry h x pre).length = pre.length + 1 := by rw [(carry_perm x pre).length_eq]; rfl
    obtain ⟨h1, h2⟩ := ih (carry h x pre) (carry_sorted v x pre hp)
    rw [hl] at h1 h2
    refine ⟨h1.trans ?_, h2⟩
    exact ((carry_perm x pre).append_right rest).trans (by
      simpa using (List.perm_middle (a := x) (l₁ := pre) (l₂ := rest)).symm)

theorem exchangeSort_spec (v : h.Valid) (l : List EId) :
    (h.exchangeSort l).Perm l ∧ (h.exchangeSort l).Pairwise (fun a b => ¬ h.Lt b a) := by
  have := outer_spec v l [] (by simp)
  simpa [exchangeSort, List.range_eq_range'] using this

/-! ## sorting by label -/

theorem getD_perm (l : List EId) (idx : List ℕ) (hp : idx.Perm (List.range l.length)) :
    (idx.map (fun i => l.getD i 0)).Perm l := by
  refine (hp.map _).trans (List.Perm.of_eq ?_)
  apply List.ext_getElem
  · simp
  · intro i h1 h2; simp [List.getD, h2]

theorem lists_of_perm (it : Iter) (c : List ℕ) (s : Finset EId) (l : List EId)
    (hp : l.Perm (it.ord c s)) : Lists s l :=
  ⟨hp.nodup_iff.2 (it.nodup c s), fun x => by rw [hp.mem_iff, it.mem]⟩

theorem sortedByLabels_lists (it : Iter) (as : ArgSort) (C s : Finset EId) (r : Bool) (l : List EId)
    (hl : h.sortedByLabels it as C (some s) r = .ok l) : Lists s l := by
  unfold sortedByLabels at hl
  simp only [Option.getD_some] at hl
  split at hl
  · cases hl
  · next idx hi =>
    have hp := getD_perm (it.ord [1133] s) idx (by simpa using as.perm _ _ hi)
    cases hl
    refine lists_of_perm it [1133] s _ ?_
    split
    · exact (List.reverse_perm _).trans hp
    · exact hp

/-- all labels of `s` are integers, given by `z` -/
def IntLabels (h : Heap) (s : Finset EId) (z : EId → ℤ) : Prop :=
  ∀ e ∈ s, h.label e = some (.int (z e))

/-- **C36, `sortedByLabels`.** Without an argument it sorts the whole causet.  Whenever it returns, the result lists the given events, each
once; it fails only if `argsort` cannot compare the labels.  For integer labels it returns, and the labels
ascend (descend with `reverse`). -/
theorem C36_sortedByLabels (it : Iter) (as : ArgSort) (C s : Finset EId) (r : Bool) :
    h.sortedByLabels it as C none r = h.sortedByLabels it as C (some C) r ∧
    (∀ l, h.sortedByLabels it as C (some s) r = .ok l → Lists s l) ∧
    (∀ x, h.sortedByLabels it as C (some s) r = .error x →
      ∃ l, Lists s l ∧ as.run (l.map h.label) = .error x) ∧
    (∀ z, IntLabels h s z → ∃ l, h.sortedByLabels it as C (some s) r = .ok l ∧
      l.Pairwise (fun a b => if r then z b ≤ z a else z a ≤ z b)) := by
  refine ⟨rfl, fun l hl => sortedByLabels_lists it as C s r l hl, fun x hx => ?_, fun z hz => ?_⟩
  · unfold sortedByLabels at hx
    simp only [Option.getD_some] at hx
    split at hx
    · next e he => cases hx; exact ⟨_, lists_of_perm it [1133] s _ (.refl _), he⟩
    · cases hx
  · unfold sortedByLabels
    simp only [Option.getD_some]
    have hm : (it.ord [1133] s).map h.label =
        ((it.ord [1133] s).map z).map (fun z => some (.int z)) := by
      rw [List.map_map]
      refine List.map_congr_left fun e he => ?_
      rw [it.mem] at he
      simpa using hz e he
    rw [hm]
    obtain ⟨idx, hi⟩ := as.ok_int ((it.ord [1133] s).map z)
    rw [hi]
    refine ⟨_, rfl, ?_⟩
    have hsort := as.sorted_int _ _ hi
    have hperm := as.perm _ _ hi
    have hsort' : (idx.map (fun i => (it.ord [1133] s).getD i 0)).Pairwise (fun a b => z a ≤ z b) := by
      rw [List.pairwise_map] at hsort ⊢
      refine hsort.imp_of_mem ?_
      intro i j hi hj hij
      have hi' : i < (it.ord [1133] s).length := by simpa using hperm.mem_iff.1 hi
      have hj' : j < (it.ord [1133] s).length := by simpa using hperm.mem_iff.1 hj
      simpa [List.getD, hi', hj'] using hij
    cases r
    · simpa using hsort'
    · simpa [List.pairwise_reverse] using hsort'

/-- **C36, `sortedByCausality`.** Without an argument it sorts the whole causet.  It returns exactly when the sorting by labels it starts with returns (always, for integer
labels), and then the result is a linear extension of the order on the given events, whatever the order of the labels; with
`reverse` it is a linear extension of the opposite order. -/
theorem C36_sortedByCausality (it : Iter) (as : ArgSort) (v : h.Valid) (C s : Finset EId) :
    (∀ r, h.sortedByCausality it as C none r = h.sortedByCausality it as C (some C) r) ∧
    (∀ l, h.sortedByCausality it as C (some s) false = .ok l → LinearExtension h.Lt s l) ∧
    (∀ l, h.sortedByCausality it as C (some s) true = .ok l →
      LinearExtension (fun a b => h.Lt b a) s l) ∧
    (∀ x r, h.sortedByCausality it as C (some s) r = .error x ↔
      h.sortedByLabels it as C (some s) true = .error x) ∧
    (∀ r z, IntLabels h s z → ∃ l, h.sortedByCausality it as C (some s) r = .ok l) := by
  have key : ∀ r l, h.sortedByCausality it as C (some s) r = .ok l →
      ∃ l0, LinearExtension h.Lt s l0 ∧ l = if r then l0.reverse else l0 := by
    intro r l hl
    unfold sortedByCausality at hl
    simp only [Option.getD_some] at hl
    split at hl
    · cases hl
    · next l1 h1 =>
      cases hl
      have hs := exchangeSort_spec v l1
      have h2 := sortedByLabels_lists it as C s true l1 h1
      exact ⟨_, ⟨⟨hs.1.nodup_iff.2 h2.1, fun x => by rw [hs.1.mem_iff, h2.2]⟩, hs.2⟩, rfl⟩
  refine ⟨fun r => rfl, fun l hl => ?_, fun l hl => ?_, fun x r => ?_, fun r z hz => ?_⟩
  · obtain ⟨l0, h1, rfl⟩ := key _ _ hl; exact h1
  · obtain ⟨l0, h1, rfl⟩ := key _ _ hl
    refine ⟨⟨by simpa using h1.1.1, fun x => by simpa using h1.1.2 x⟩, ?_⟩
    simpa [List.pairwise_reverse] using h1.2
  · unfold sortedByCausality
    simp only [Option.getD_some]
    split
    · next e he => rw [he]
    · next l hl => rw [hl]; simp
  · obtain ⟨l, hl, -⟩ := (C36_sortedByLabels it as C s true).2.2.2 z hz
    unfold sortedByCausality
    simp only [Option.getD_some, hl]
    exact ⟨_, rfl⟩

/-- a sorting function satisfying the assumptions on `argsort`: insertion sort of the indices -/
def exArgSort : ArgSort where
  run := fun ls => .ok ((List.range ls.length).insertionSort (fun i j =>
    (match ls.getD i none with | some (.int z) => z | _ => 0) ≤
    (match ls.getD j none with | some (.int z) => z | _ => 0)))
  perm := fun ls idx hr => by cases hr; exact List.perm_insertionSort _ _
  ok_int := fun zs => ⟨_, rfl⟩
  sorted_int := fun zs idx hr => by
    cases hr
    have hs := List.pairwise_insertionSort (fun i j : ℕ =>
      (match (zs.map (fun z => some (Label.int z))).getD i none with | some (.int z) => z | _ => 0) ≤
      (match (zs.map (fun z => some (Label.int z))).getD j none with | some (.int z) => z | _ => 0))
      (List.range (zs.map (fun z => some (Label.int z))).length)
    rw [List.pairwise_map]
    refine hs.imp_of_mem ?_
    intro i j hi hj hij
    have hi' : i < zs.length := by simpa using (List.perm_insertionSort _ _).mem_iff.1 hi
    have hj' : j < zs.length := by simpa using (List.perm_insertionSort _ _).mem_iff.1 hj
    simpa [List.getD, hi', hj'] using hij

/-- the diamond 0 < 1, 2 < 3 has integer labels and is sorted -/
example : (exDiamond.sortedByCausality Iter.asc exArgSort {0, 1, 2, 3} none false).toOption = some [0, 1, 2, 3] := by
  decide

/-! ## C37: matrices -/

/-- `M` is the matrix of the relation `R` on the indices of the list `l`: `M[i, j]` is True exactly if `R (l[i]) (l[j])`. -/
def IsMatrixOf (l : List ℕ) (R : ℕ → ℕ → Prop) (M : List (List Bool)) : Prop :=
  M.length = l.length ∧ (∀ row ∈ M, row.length = l.length) ∧
  ∀ (i j : ℕ) (hi : i < l.length) (hj : j < l.length), (matEntry M i j = true ↔ R l[i] l[j])

theorem isMatrixOf_map (l : List EId) (f : EId → EId → Bool) :
    IsMatrixOf l (fun a b => f a b = true) (l.map (fun a => l.map (fun b => f a b))) := by
  refine ⟨by simp, ?_, fun i j hi hj => ?_⟩
  · intro row hr
    obtain ⟨a, -, rfl⟩ := List.mem_map.1 hr
    simp
  · simp [matEntry, List.getD, hi, hj]

theorem IsMatrixOf.congr {l : List ℕ} {R R' : ℕ → ℕ → Prop} {M : List (List Bool)} (hM : IsMatrixOf l R M)
    (hR : ∀ a b, R a b ↔ R' a b) : IsMatrixOf l R' M :=
  ⟨hM.1, hM.2.1, fun i j hi hj => (hM.2.2 i j hi hj).trans (hR _ _)⟩

theorem IsMatrixOf.transpose {l : List ℕ} {R : ℕ → ℕ → Prop} {M : List (List Bool)} (hM : IsMatrixOf l R M) :
    IsMatrixOf l (fun a b => R b a) (matT M) := by
  refine ⟨by simp [matT, hM.1], ?_, fun i j hi hj => ?_⟩
  · intro row hr
    obtain ⟨a, -, rfl⟩ := List.mem_map.1 hr
    simp [hM.1]
  · refine Iff.trans ?_ (hM.2.2 j i hj hi)
    have : matEntry (matT M) i j = matEntry M j i := by
      conv_lhs => unfold matEntry matT
      simp [List.getD, hM.1, hi, hj]
    rw [this]

/-- **C37, given order.** For every list of events, `PastMatrix` is the matrix of "column event precedes row event", `FutureMatrix` its
transpose. -/
theorem C37_given (it : Iter) (as : ArgSort) (C : Finset EId) (l : List EId) :
    (∃ M, h.pastMatrix it as C (some l) = .ok M ∧ IsMatrixOf l (fun a b => h.Lt b a) M) ∧
    (∃ M, h.futureMatrix it as C (some l) = .ok M ∧ IsMatrixOf l (fun a b => h.Lt a b) M) := by
  have h1 : IsMatrixOf l (fun a b => h.Lt b a) (h.pastMatrixOf l) :=
    (isMatrixOf_map l (fun a b => h.gt a b)).congr (fun a b => by simp [gt, Lt, lt])
  refine ⟨⟨_, rfl, h1⟩, ⟨_, rfl, h1.transpose⟩⟩

/-- **C37, default order.** If the events can be sorted (e.g. integer labels), the default `PastMatrix` is the matrix for some listing of
all events and strictly lower triangular; the default `FutureMatrix` is the transpose for the same listing. -/
theorem C37_default (it : Iter) (as : ArgSort) (v : h.Valid) (C : Finset EId) (z : EId → ℤ)
    (hz : IntLabels h C z) :
    ∃ l P F, Lists C l ∧ h.pastMatrix it as C none = .ok P ∧ h.futureMatrix it as C none = .ok F ∧
      IsMatrixOf l (fun a b => h.Lt b a) P ∧ IsMatrixOf l (fun a b => h.Lt a b) F ∧
      (∀ i j, i ≤ j → matEntry P i j = false) := by
  obtain ⟨-, hlin, -, -, hok⟩ := C36_sortedByCausality it as v C C
  obtain ⟨l, hl⟩ := hok false z hz
  have hlin := hlin l hl
  have h1 : IsMatrixOf l (fun a b => h.Lt b a) (h.pastMatrixOf l) :=
    (isMatrixOf_map l (fun a b => h.gt a b)).congr (fun a b => by simp [gt, Lt, lt])
  have hp : h.pastMatrix it as C none = .ok (h.pastMatrixOf l) := by
    unfold pastMatrix
    have : h.sortedByCausality it as C none false = .ok l := hl
    simp only [this]
  refine ⟨l, _, _, hlin.1, hp, by unfold futureMatrix; rw [hp], h1, h1.transpose, fun i j hij => ?_⟩
  by_cases hj : j < l.length
  · rw [← Bool.not_eq_true, h1.2.2 i j (by omega) hj]
    rcases Nat.lt_or_eq_of_le hij with hlt | rfl
    · exact List.pairwise_iff_getElem.1 hlin.2 i j (by omega) hj hlt
    · exact v.irrefl _
  · unfold matEntry
    by_cases hi : i < (h.pastMatrixOf l).length
    · have : ((h.pastMatrixOf l).getD i []).length = l.length := by
        simp only [List.getD, List.getElem?_eq_getElem hi, Option.getD_some]
        exact h1.2.1 _ (List.getElem_mem hi)
      rw [List.getD, List.getElem?_eq_none (by omega)]; rfl
    · have : (h.pastMatrixOf l).getD i [] = [] := by rw [List.getD, List.getElem?_eq_none (by omega)]; rfl
      rw [this]; rfl

/-- **C37, link matrices.** For every list of events, asked in any state of the link memory, `LinkPastMatrix` is the matrix of "column event is linked in the past to the row
event" and `LinkFutureMatrix` its transpose. -/
theorem C37_links (it : Iter) (as : ArgSort) (v : h.Valid) (C : Finset EId) (l : List EId) :
    h.AnswersWith (linkPastMatrix it as C (some l)) (fun r => ∃ M, r = .ok M ∧
      IsMatrixOf l (fun a b => Covers h.Lt b a) M) ∧
    h.AnswersWith (linkFutureMatrix it as C (some l)) (fun r => ∃ M, r = .ok M ∧
      IsMatrixOf l (fun a b => Covers h.Lt a b) M) := by
  have h1 : h.AnswersWith (linkPastMatrix it as C (some l)) (fun r => ∃ M, r = .ok M ∧
      IsMatrixOf l (fun a b => Covers h.Lt b a) M) := by
    unfold linkPastMatrix linkPastMatrixOf
    refine Answers.bind (Answers.mapM (g := fun a => l.map (fun b => decide (b ∈ h.pastLinks a))) l fun a _ =>
      Answers.mapM l fun b _ => isPastLink_answers v a b) (AnswersWith.pure ⟨_, rfl, ?_⟩)
    exact (isMatrixOf_map l _).congr (fun a b => by simp [mem_pastLinks v])
  refine ⟨h1, ?_⟩
  unfold linkFutureMatrix
  refine AnswersWith.bind h1 ?_
  rintro _ ⟨M, rfl, hM⟩
  exact AnswersWith.pure ⟨_, rfl, hM.transpose⟩

/-- **C37, default order of the link matrices**: the same listing as for the default `PastMatrix`. -/
theorem C37_links_default (it : Iter) (as : ArgSort) (v : h.Valid) (C : Finset EId) (z : EId → ℤ)
    (hz : IntLabels h C z) :
    ∃ l P, Lists C l ∧ h.pastMatrix it as C none = .ok P ∧ IsMatrixOf l (fun a b => h.Lt b a) P ∧
      h.AnswersWith (linkPastMatrix it as C none) (fun r => ∃ M, r = .ok M ∧
        IsMatrixOf l (fun a b => Covers h.Lt b a) M) := by
  obtain ⟨-, hlin, -, -, hok⟩ := C36_sortedByCausality it as v C C
  obtain ⟨l, hl⟩ := hok false z hz
  have hp : h.pastMatrix it as C none = .ok (h.pastMatrixOf l) := by
    unfold pastMatrix
    have : h.sortedByCausality it as C none false = .ok l := hl
    simp only [this]
  refine ⟨l, _, (hlin l hl).1, hp,
    (isMatrixOf_map l (fun a b => h.gt a b)).congr (fun a b => by simp [gt, Lt, lt]), ?_⟩
  unfold linkPastMatrix
  refine AnswersWith.bind AnswersWith.get fun h' so => ?_
  have hl' : h'.sortedByCausality it as C none false = .ok l := by
    have : h'.sortedByCausality it as C none false = h.sortedByCausality it as C none false := by
      unfold sortedByCausality sortedByLabels exchangeSort swapStep
      rw [so.label, so.lt]
    rw [this]; exact hl
  simp only [hl']
  unfold linkPastMatrixOf
  refine Answers.bind (Answers.mapM (g := fun a => l.map (fun b => decide (b ∈ h.pastLinks a))) l fun a _ =>
      Answers.mapM l fun b _ => isPastLink_answers v a b) (AnswersWith.pure ⟨_, rfl, ?_⟩)
  exact (isMatrixOf_map l _).congr (fun a b => by simp [mem_pastLinks v])

/-- between two related events of an order-convex list there is a path of links inside the list -/
theorem transGen_covers (v : h.Valid) (s : Finset EId) (hs : OrdConvex h.Lt s) :
    ∀ (n : ℕ) (a b : EId), (h.future a ∩ h.past b).card ≤ n → a ∈ s → b ∈ s → h.Lt a b →
      Relation.TransGen (fun x y => x ∈ s ∧ y ∈ s ∧ Covers h.Lt x y) a b := by
  intro n
  induction n with
  | zero =>
    intro a b hc ha hb hab
    refine .single ⟨ha, hb, hab, fun c hac => ?_⟩
    have : c ∈ h.future a ∩ h.past b := Finset.mem_inter.2 ⟨(v.future_eq _ _).2 hac.1, (v.past_eq _ _).2 hac.2⟩
    have h0 : h.future a ∩ h.past b = ∅ := Finset.card_eq_zero.1 (by omega)
    rw [h0] at this; simp at this
  | succ n ih =>
    intro a b hc ha hb hab
    by_cases hcov : ∃ c, h.Lt a c ∧ h.Lt c b
    · obtain ⟨c, hac, hcb⟩ := hcov
      have hcs := hs a ha b hb c hac hcb
      have hcm : c ∈ h.future a ∩ h.past b := Finset.mem_inter.2 ⟨(v.future_eq _ _).2 hac, (v.past_eq _ _).2 hcb⟩
      have s1 : (h.future a ∩ h.past c) ⊂ (h.future a ∩ h.past b) := by
        refine ⟨fun x hx => ?_, fun hsub => ?_⟩
        · rw [Finset.mem_inter, v.future_eq, v.past_eq] at hx ⊢
          exact ⟨hx.1, v.trans hx.2 hcb⟩
        · have := hsub hcm
          rw [Finset.mem_inter, v.past_eq] at this
          exact v.irrefl _ this.2
      have s2 : (h.future c ∩ h.past b) ⊂ (h.future a ∩ h.past b) := by
        refine ⟨fun x hx => ?_, fun hsub => ?_⟩
        · rw [Finset.mem_inter, v.future_eq, v.past_eq] at hx ⊢
          exact ⟨v.trans hac hx.1, hx.2⟩
        · have := hsub hcm
          rw [Finset.mem_inter, v.future_eq] at this
          exact v.irrefl _ this.1
      have := Finset.card_lt_card s1
      have := Finset.card_lt_card s2
      exact (ih a c (by omega) ha hcs hac).trans (ih c b (by omega) hcs hb hcb)
    · exact .single ⟨ha, hb, hab, fun c hc' => hcov ⟨c, hc'⟩⟩

/-- **C37, matrices.** If the listed events are order-convex (e.g. all events of a causet), `PastMatrix` is the transitive closure of
`LinkPastMatrix`, and the latter is entrywise at most the former. -/
theorem C37_closure (v : h.Valid) (l : List EId) (P L : List (List Bool))
    (hc : OrdConvex h.Lt l.toFinset) (hP : IsMatrixOf l (fun a b => h.Lt b a) P)
    (hL : IsMatrixOf l (fun a b => Covers h.Lt b a) L) :
    (∀ i j, i < l.length → j < l.length → matEntry L i j = true → matEntry P i j = true) ∧
    (∀ i j, i < l.length → j < l.length → (matEntry P i j = true ↔
      Relation.TransGen (fun i j => i < l.length ∧ j < l.length ∧ matEntry L i j = true) i j)) := by
  have hle : ∀ i j, i < l.length → j < l.length → matEntry L i j = true → matEntry P i j = true := by
    intro i j hi hj hij
    rw [hL.2.2 i j hi hj] at hij
    rw [hP.2.2 i j hi hj]
    exact hij.1
  refine ⟨hle, fun i j hi hj => ⟨fun hij => ?_, fun hij => ?_⟩⟩
  · rw [hP.2.2 i j hi hj] at hij
    have := transGen_covers v l.toFinset hc _ l[j] l[i] le_rfl (by simp) (by simp) hij
    have key : ∀ b, Relation.TransGen (fun x y => x ∈ l.toFinset ∧ y ∈ l.toFinset ∧ Covers h.Lt x y) l[j] b →
        ∀ k (hk : k < l.length), l[k] = b →
        Relation.TransGen (fun i j => i < l.length ∧ j < l.length ∧ matEntry L i j = true) k j := by
      intro b hb
      induction hb with
      | single hs =>
        intro k hk he
        exact .single ⟨hk, hj, (hL.2.2 k j hk hj).2 (by rw [he]; exact hs.2.2)⟩
      | tail h1 h2 ih =>
        intro k hk he
        obtain ⟨m, hm, hme⟩ := List.getElem_of_mem (List.mem_toFinset.1 h2.1)
        exact .head ⟨hk, hm, (hL.2.2 k m hk hm).2 (by rw [he, hme]; exact h2.2.2)⟩ (ih m hm hme)
    exact key _ this i hi rfl
  · have key : ∀ k, Relation.TransGen (fun i j => i < l.length ∧ j < l.length ∧ matEntry L i j = true) i k →
        ∃ hk : k < l.length, h.Lt l[k] l[i] := by
      intro k hk
      induction hk with
      | single hs => exact ⟨hs.2.1, ((hL.2.2 _ _ hs.1 hs.2.1).1 hs.2.2).1⟩
      | tail h1 h2 ih =>
        obtain ⟨hb, ih⟩ := ih
        exact ⟨h2.2.1, v.trans ((hL.2.2 _ _ h2.1 h2.2.1).1 h2.2.2).1 ih⟩
    obtain ⟨_, hk⟩ := key j hij
    exact (hP.2.2 i j hi hj).2 hk

/-- the diamond: its default matrices, and its list of events is order-convex -/
example : (exDiamond.pastMatrix Iter.asc exArgSort {0, 1, 2, 3} none).toOption =
    some [[false, false, false, false], [true, false, false, false], [true, false, false, false],
      [true, true, true, false]] ∧
    (((linkPastMatrix Iter.asc exArgSort {0, 1, 2, 3} none).run exDiamond).1).toOption =
    some [[false, false, false, false], [true, false, false, false], [true, false, false, false],
      [false, true, true, false]] ∧ IntLabels exDiamond {0, 1, 2, 3} (fun e => (e : ℤ) + 1) :=
  ⟨by decide, by decide, by unfold IntLabels; decide⟩

end Causets
