import Verif.Props.Create

/-! # C65 (relabel), C46 (labels after discard), C61 (embedding flags) -/

namespace Causets

open Heap

open Function (update)

/-! ## `relabel` -/

/-- **Specification.** `s` is a result of `numpy.argsort(l)`: a permutation of the indices that puts `l` in ascending order. -/
structure IsArgsort {β : Type} [LE β] (l : List β) (s : List ℕ) : Prop where
  perm : s.Perm (List.range l.length)
  sorted : s.Pairwise fun i j => ∀ x y, l[i]? = some x → l[j]? = some y → x ≤ y

theorem relabelLoop_spec (L : List EId) (hL : L.Nodup) : ∀ (s : List ℕ) (i : ℕ) (h : Heap), s.Nodup → (∀ k ∈ s, k < L.length) →
    (∀ k idx e, s[k]? = some idx → L[idx]? = some e → (relabelLoop L i s h).label e = some (.int ((i + k + 1 : ℕ) : ℤ))) ∧
    (∀ e, (∀ idx ∈ s, L[idx]? ≠ some e) → (relabelLoop L i s h).label e = h.label e) ∧
    (∃ f, relabelLoop L i s h = { h with label := f }) := by
  intro s
  induction s with
  | nil => intro i h _ _; exact ⟨by simp, fun e _ => rfl, h.label, rfl⟩
  | cons idx rest ih =>
    intro i h hnd hlt
    have hidx : idx < L.length := hlt idx (by simp)
    rw [List.nodup_cons] at hnd
    obtain ⟨i1, i2, f, i3⟩ := ih (i + 1) { h with label := update h.label (L.getD idx 0) (some (.int (i + 1))) } hnd.2
      (fun k hk => hlt k (by simp [hk]))
    have hg : L[idx]? = some (L.getD idx 0) := by simp [List.getD, hidx]
    have inj : ∀ j e, L[j]? = some e → L[idx]? = some e → j = idx := fun j e h1 h2 => by
      obtain ⟨hj, rfl⟩ := List.getElem?_eq_some_iff.1 h1
      obtain ⟨_, h3⟩ := List.getElem?_eq_some_iff.1 h2
      exact (List.Nodup.getElem_inj_iff hL).1 h3.symm
    refine ⟨?_, ?_, f, by rw [relabelLoop, i3]⟩
    · intro k idx' e hk he
      cases k with
      | zero =>
        rw [List.getElem?_cons_zero, Option.some.injEq] at hk
        subst hk
        rw [relabelLoop, i2 e]
        · rw [hg, Option.some.injEq] at he
          subst he
          simp
        · intro j hj he'
          exact hnd.1 (inj j e he' he ▸ hj)
      | succ k =>
        rw [List.getElem?_cons_succ] at hk
        rw [relabelLoop, i1 k idx' e hk he]
        congr 3; omega
    · intro e he
      rw [relabelLoop, i2 e fun j hj => he j (by simp [hj])]
      have : e ≠ L.getD idx 0 := fun h' => he idx (by simp) (h' ▸ hg)
      dsimp only
      rw [Function.update_of_ne this]

/-- **C65.** `relabel(dim, descending)`: for every coordinate `key` of the events, every iteration order and every way `argsort` breaks ties,
the events of the causet get the labels `1, ..., Card`, each exactly once, ascending (descending) with the coordinate; all other labels
and everything else stays. -/
theorem C65_relabel {β : Type} [LinearOrder β] (it : Iter) (C : Finset EId) (key : EId → β) (argsort : List β → List ℕ)
    (hsort : ∀ l, IsArgsort l (argsort l)) (descending : Bool) (h : Heap) :
    let h' := relabel it C key argsort descending h
    ∃ num : EId → ℕ, (∀ e ∈ C, h'.label e = some (.int (num e)) ∧ 1 ≤ num e ∧ num e ≤ C.card) ∧
      (∀ a ∈ C, ∀ b ∈ C, num a = num b → a = b) ∧
      (∀ n, 1 ≤ n → n ≤ C.card → ∃ e ∈ C, num e = n) ∧
      (∀ a ∈ C, ∀ b ∈ C, key a < key b → if descending then num b < num a else num a < num b) ∧
      (∀ e, e ∉ C → h'.label e = h.label e) ∧
      (∃ f, h' = { h with label := f }) := by
  intro h'
  set L := it.ord [245] C with hLd
  have hL : L.Nodup := it.nodup _ _
  have memL : ∀ e, e ∈ L ↔ e ∈ C := fun e => it.mem _ _ _
  have lenL : L.length = C.card := by
    rw [← List.toFinset_card_of_nodup hL]; congr 1; ext e; simp [memL]
  set s0 := argsort (L.map key) with hs0
  set s := if descending then s0.reverse else s0 with hs
  have hd : h' = relabelLoop L 0 s h := rfl
  have hp0 : s0.Perm (List.range L.length) := by simpa using (hsort (L.map key)).perm
  have hps : s.Perm (List.range L.length) := by
    rw [hs]; split
    · exact (List.reverse_perm s0).trans hp0
    · exact hp0
  have hnds : s.Nodup := hps.nodup_iff.2 List.nodup_range
  have hlens : s.length = L.length := by rw [hps.length_eq]; simp
  obtain ⟨r1, r2, r3⟩ := relabelLoop_spec L hL s 0 h hnds (fun k hk => by simpa using (hps.mem_iff.1 hk))
  -- position of an event
  have hpos : ∀ e ∈ C, ∃ k idx : ℕ, s[k]? = some idx ∧ L[idx]? = some e := by
    intro e he
    obtain ⟨idx, hidx⟩ := List.mem_iff_getElem?.1 ((memL e).2 he)
    have hi : idx < L.length := (List.getElem?_eq_some_iff.1 hidx).1
    obtain ⟨k, hk⟩ := List.mem_iff_getElem?.1 (hps.mem_iff.2 (List.mem_range.2 hi))
    exact ⟨k, idx, hk, hidx⟩
  choose! pk pidx hk hidx using hpos
  refine ⟨fun e => pk e + 1, fun e he => ⟨?_, by simp, ?_⟩, fun a ha b hb hab => ?_, fun n hn1 hn2 => ?_, fun a ha b hb hab => ?_,
    fun e he => ?_, ?_⟩
  · rw [hd, r1 _ _ e (hk e he) (hidx e he)]; simp
  · have := (List.getElem?_eq_some_iff.1 (hk e he)).1
    dsimp only; omega
  · have e1 : pk a = pk b := by simpa using hab
    have h1 := hk a ha
    rw [e1, hk b hb, Option.some.injEq] at h1
    have h2 := hidx a ha
    rw [← h1, hidx b hb] at h2
    simpa using h2.symm
  · have hlt : n - 1 < s.length := by omega
    have hi : s[n - 1] < L.length := by
      have := hps.mem_iff.1 (List.getElem_mem hlt)
      simpa using this
    refine ⟨L[s[n - 1]], (memL _).1 (List.getElem_mem hi), ?_⟩
    have hC : L[s[n - 1]] ∈ C := (memL _).1 (List.getElem_mem hi)
    obtain ⟨h1, h2⟩ := List.getElem?_eq_some_iff.1 (hidx _ hC)
    have h3 := (List.Nodup.getElem_inj_iff hL).1 h2
    obtain ⟨h4, h5⟩ := List.getElem?_eq_some_iff.1 (hk _ hC)
    have h6 := (List.Nodup.getElem_inj_iff hnds).1 (h5.trans h3)
    dsimp only; omega
  · have ka : (L.map key)[pidx a]? = some (key a) := by simp [hidx a ha]
    have kb : (L.map key)[pidx b]? = some (key b) := by simp [hidx b hb]
    obtain ⟨ha1, ha2⟩ := List.getElem?_eq_some_iff.1 (hk a ha)
    obtain ⟨hb1, hb2⟩ := List.getElem?_eq_some_iff.1 (hk b hb)
    have hne : pk a ≠ pk b := by
      intro e1
      have h1 := hk a ha
      rw [e1, hk b hb, Option.some.injEq] at h1
      rw [h1] at kb
      rw [ka, Option.some.injEq] at kb
      exact absurd hab (by rw [kb]; exact lt_irrefl _)
    have hsrt := (hsort (L.map key)).sorted
    rw [← hs0] at hsrt
    by_cases hdesc : descending
    · rw [if_pos hdesc]
      have hse : s.Pairwise fun i j => ∀ x y, (L.map key)[i]? = some x → (L.map key)[j]? = some y → y ≤ x := by
        rw [hs, if_pos hdesc, List.pairwise_reverse]
        exact hsrt.imp fun h x y hx hy => h y x hy hx
      rcases lt_or_gt_of_ne hne with hlt | hlt
      · have := List.pairwise_iff_getElem.1 hse _ _ ha1 hb1 hlt (key a) (key b) (by rw [ha2]; exact ka) (by rw [hb2]; exact kb)
        exact absurd hab (not_lt.2 this)
      · dsimp only; omega
    · rw [if_neg hdesc]
      have hse : s.Pairwise fun i j => ∀ x y, (L.map key)[i]? = some x → (L.map key)[j]? = some y → x ≤ y := by
        rw [hs, if_neg hdesc]; exact hsrt
      rcases lt_or_gt_of_ne hne with hlt | hlt
      · dsimp only; omega
      · have := List.pairwise_iff_getElem.1 hse _ _ hb1 ha1 hlt (key b) (key a) (by rw [hb2]; exact kb) (by rw [ha2]; exact ka)
        exact absurd hab (not_lt.2 this)
  · rw [hd, r2 e]
    intro idx _ he'
    exact he ((memL e).1 (List.mem_of_getElem? he'))
  · rw [hd]; exact r3

/-! ## Labels after `discard` -/

/-- **C46, refuted with `discard`.** Create three events, discard the first, create one more: its label `3` is taken already.  (The causality
is that of 1-dimensional spacetime.) -/
theorem C46_labels_after_discard_refuted :
    let c : ℕ → ℕ → Bool × Bool := fun x y => (decide (x ≤ y), decide (y < x))
    let w0 : World ℕ := { heap := Heap.empty, crd := fun _ => none }
    let r1 := create c Iter.asc ∅ [0, 1, 2] none true w0
    -- `discard(e)` with the default `disjoin=False`: causet.py:277-295
    let C2 := r1.1.erase 0
    let r2 := create c Iter.asc C2 [3] none true r1.2.2.2
    r1.1 = {0, 1, 2} ∧ r2.1 = {1, 2, 3} ∧ r2.2.2.2.heap.label 2 = some (.int 3) ∧ r2.2.2.2.heap.label 3 = some (.int 3) := by
  decide

/-! ## Embedding flags -/

section
variable {β : Type}

/-- the calls a user can make on the embedding attributes of an event -/
inductive EmbedCall (β : Type)
  | embed (x : List β) (reembed : Bool)
  | disembed
  | setPosition (p : List β)

/-- effect of a call (an exception leaves the program running in the state in which it was raised) -/
def EmbedCall.run : EmbedCall β → EmbedAttr β → EmbedAttr β
  | .embed x r, s => (s.embed x r).2
  | .disembed, s => s.disembed.2
  | .setPosition p, s => (s.setPosition p).2

/-- **C61, refuted.** `CausetEvent()` without coordinates counts as embedded, and `embed(x)` raises AttributeError, for every `x`. -/
theorem C61_new_event_refuted (pos : Option (List β)) (x : List β) :
    (EmbedAttr.init none pos).isEmbedded = true ∧ (EmbedAttr.init none pos).coordinatesDim = 0 ∧
    ((EmbedAttr.init none pos).embed x false).1 = .error .attributeError := ⟨rfl, rfl, rfl⟩

/-- **Specification.** The coordinates of an event after a sequence of calls, the last one first: those of the constructor, replaced by every
`embed(x, reembed=True)` and by every `embed(x)` of an event that is not embedded, and removed by `disembed()`. -/
def coordsAfter (init : Option (List β)) : List (EmbedCall β) → Option (List β)
  | [] => some (init.getD [])
  | .embed x true :: _ => some x
  | .embed x false :: before => some ((coordsAfter init before).getD x)
  | .disembed :: _ => none
  | .setPosition _ :: before => coordsAfter init before

/-- **Specification.** The position after a sequence of calls: the last accepted one. -/
def positionAfter (init : Option (List β)) : List (EmbedCall β) → List β
  | [] => init.getD []
  | .setPosition p :: before => if p.length = 2 then p else positionAfter init before
  | _ :: before => positionAfter init before

/-- **C61, the part that holds.** After every history of `embed`, `disembed` and `Position = ...` calls: `isEmbedded`, `Coordinates`,
`CoordinatesDim` and `Position` are what an optional field would give; the next `embed` raises exactly if the event is embedded and `reembed` is
not set, the next `disembed` exactly if it is not embedded, `Position = p` exactly if `p` does not have two components. -/
theorem C61_flags_partial [Zero β] (init pos : Option (List β)) (calls : List (EmbedCall β)) :
    let s := calls.foldr EmbedCall.run (EmbedAttr.init init pos)
    s.isEmbedded = (coordsAfter init calls).isSome ∧
    s.getCoordinates = (match coordsAfter init calls with | some x => .ok x | none => .error .attributeError) ∧
    s.coordinatesDim = ((coordsAfter init calls).map List.length).getD 0 ∧
    s.getPosition = positionAfter pos calls ∧
    (∀ x r, (s.embed x r).1 = if (coordsAfter init calls).isSome ∧ r = false then .error .attributeError else .ok ()) ∧
    (s.disembed.1 = if (coordsAfter init calls).isSome then .ok () else .error .attributeError) ∧
    (∀ p, (s.setPosition p).1 = if p.length = 2 then .ok () else .error .valueError) := by
  intro s
  have key : s.coordinates = coordsAfter init calls ∧ s.position = some (positionAfter pos calls) := by
    have : s = calls.foldr EmbedCall.run (EmbedAttr.init init pos) := rfl
    rw [this]
    clear this s
    induction calls with
    | nil => exact ⟨rfl, rfl⟩
    | cons a l ih =>
      obtain ⟨i1, i2⟩ := ih
      rw [List.foldr_cons]
      cases a with
      | embed x r =>
        cases r with
        | true => exact ⟨rfl, i2⟩
        | false =>
          cases hc : coordsAfter init l with
          | none =>
            rw [hc] at i1
            simp [EmbedCall.run, EmbedAttr.embed, EmbedAttr.isEmbedded, coordsAfter, positionAfter, i1, i2, hc]
          | some y =>
            rw [hc] at i1
            simp [EmbedCall.run, EmbedAttr.embed, EmbedAttr.isEmbedded, coordsAfter, positionAfter, i1, i2, hc]
      | disembed =>
        simp only [EmbedCall.run, EmbedAttr.disembed, coordsAfter, positionAfter]
        cases hc : (List.foldr EmbedCall.run (EmbedAttr.init init pos) l).coordinates with
        | none => exact ⟨hc, i2⟩
        | some y => exact ⟨rfl, i2⟩
      | setPosition p =>
        simp only [EmbedCall.run, EmbedAttr.setPosition, coordsAfter, positionAfter]
        by_cases hp : p.length = 2
        · simp [hp, i1]
        · simp [hp, i1, i2]
  obtain ⟨k1, k2⟩ := key
  refine ⟨by rw [EmbedAttr.isEmbedded, k1], ?_, ?_, ?_, fun x r => ?_, ?_, fun p => ?_⟩
  · rw [EmbedAttr.getCoordinates, k1]; cases coordsAfter init calls <;> rfl
  · rw [EmbedAttr.coordinatesDim, k1]; cases coordsAfter init calls <;> rfl
  · rw [EmbedAttr.getPosition, k2]
  · rw [EmbedAttr.embed, EmbedAttr.isEmbedded, k1]
    cases coordsAfter init calls <;> cases r <;> rfl
  · rw [EmbedAttr.disembed, k1]; cases coordsAfter init calls <;> rfl
  · rw [EmbedAttr.setPosition]
    by_cases hp : p.length = 2 <;> simp [hp]

end

/-- a history of calls in which all kinds occur -/
example : coordsAfter (β := ℕ) none [.embed [1] false, .setPosition [3], .disembed, .embed [7] false] = some [1] := rfl

/-- C65: two events with the same coordinate and one with another -/
example : IsArgsort [5, 2, 5] [1, 2, 0] ∧ IsArgsort [5, 2, 5] [1, 0, 2] := by
  constructor <;> refine ⟨by decide, ?_⟩ <;> simp

/-- C65: an `argsort` exists for every list (numpy's is one) -/
theorem argsort_exists {β : Type} [LinearOrder β] : ∃ f : List β → List ℕ, ∀ l, IsArgsort l (f l) := by
  have key : ∀ l : List β, ∃ s, IsArgsort l s := by
    intro l
    let f : ℕ → WithBot β := fun i => l[i]?
    have : Std.Total fun i j : ℕ => f i ≤ f j := ⟨fun i j => le_total _ _⟩
    have : IsTrans ℕ fun i j : ℕ => f i ≤ f j := ⟨fun i j k => le_trans⟩
    refine ⟨(List.range l.length).mergeSort fun i j => decide (f i ≤ f j), List.mergeSort_perm _ _, ?_⟩
    refine (List.pairwise_mergeSort' (fun i j : ℕ => f i ≤ f j) (List.range l.length)).imp ?_
    intro i j hij x y hx hy
    have h1 : f i = (x : WithBot β) := hx
    have h2 : f j = (y : WithBot β) := hy
    rw [h1, h2] at hij
    exact WithBot.coe_le_coe.1 hij
  exact ⟨fun l => (key l).choose, fun l => (key l).choose_spec⟩

end Causets
