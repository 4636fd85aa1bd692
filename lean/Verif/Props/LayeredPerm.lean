import Verif.Model.PermutedOld
import Verif.Props.AntiPerm

/-! # C106 — what `layeredPermutations` yields (causetpermutations.py:137-170) -/

namespace Causets
open Heap

variable {h : Heap}

/-! ## Specification -/

/-- All ways to choose one element of each list, ordered like the words of a dictionary (the last choice varies fastest). -/
def choices {α : Type} : List (List α) → List (List α)
  | [] => [[]]
  | G :: Gs => G.flatMap (fun p => (choices Gs).map (fun q => p :: q))

theorem mem_choices {α : Type} : ∀ (Gs : List (List α)) (c : List α), c ∈ choices Gs ↔ List.Forall₂ (fun x G => x ∈ G) c Gs
  | [], c => by simp [choices]
  | G :: Gs, c => by
    simp only [choices, List.mem_flatMap, List.mem_map]
    constructor
    · rintro ⟨p, hp, q, hq, rfl⟩
      exact .cons hp ((mem_choices Gs q).1 hq)
    · intro hc
      cases hc with
      | cons hp hq => exact ⟨_, hp, _, (mem_choices Gs _).2 hq, rfl⟩

theorem choices_length {α : Type} : ∀ (Gs : List (List α)), (choices Gs).length = (Gs.map List.length).prod
  | [] => rfl
  | G :: Gs => by
    simp [choices, List.length_flatMap, choices_length Gs]

theorem choices_ne_nil {α : Type} : ∀ (Gs : List (List α)), (∀ G ∈ Gs, G ≠ []) → choices Gs ≠ []
  | [], _ => by simp [choices]
  | G :: Gs, hG => by
    have h1 := hG G (by simp)
    have h2 := choices_ne_nil Gs (fun G' hG' => hG G' (by simp [hG']))
    obtain ⟨p, hp⟩ := List.exists_mem_of_ne_nil _ h1
    obtain ⟨q, hq⟩ := List.exists_mem_of_ne_nil _ h2
    intro he
    have : p :: q ∈ choices (G :: Gs) := by
      simp only [choices, List.mem_flatMap, List.mem_map]
      exact ⟨p, hp, q, hq, rfl⟩
    rw [he] at this
    simp at this

/-- the choices are all different if no list repeats an element -/
theorem choices_nodup {α : Type} : ∀ (Gs : List (List α)), (∀ G ∈ Gs, G.Nodup) → (choices Gs).Nodup
  | [], _ => by simp [choices]
  | G :: Gs, hG => by
    have h1 := hG G (by simp)
    have h2 := choices_nodup Gs (fun G' hG' => hG G' (by simp [hG']))
    rw [choices, List.nodup_flatMap]
    refine ⟨fun p _ => h2.map (fun a b hab => by simpa using hab), ?_⟩
    refine h1.imp ?_
    intro a b hab
    simp only [Function.onFun, List.disjoint_left, List.mem_map]
    rintro _ ⟨q, -, rfl⟩ ⟨q', -, he⟩
    exact hab (List.cons.inj he).1.symm

/-! ## The loop -/

section
variable (it : Iter) (C : Finset EId) (depth : ℕ)

/-- the lists that the generator of a layer yields -/
def layerLists (h : Heap) (l : Finset EId) : List (List EId) := (h.antichainPermutations it C depth l false).1

/-- the state of the generators fits the layers: each is at some point of its run -/
def StateOf (h : Heap) : List (Finset EId) → List LayerState → Prop :=
  List.Forall₂ (fun l s => ∃ pre, layerLists it C depth h l = pre ++ s.1 :: s.2.1 ∧ s.2.2 = (h.antichainPermutations it C depth l false).2)

/-- what is still to come, including the present contents -/
def remaining (h : Heap) : List (Finset EId) → List LayerState → List (List (List EId))
  | l :: ls, (p, g) :: st => (remaining h ls st).map (fun q => p :: q) ++ g.1.flatMap (fun p' => (choices (ls.map (layerLists it C depth h))).map (fun q => p' :: q))
  | _, _ => [[]]

theorem init_state (ls : List (Finset EId)) : ∀ (st : List LayerState), layeredPermInit it h C depth ls = .ok st →
    StateOf it C depth h ls st ∧ remaining it C depth h ls st = choices (ls.map (layerLists it C depth h)) := by
  induction ls with
  | nil => intro st e; cases e; exact ⟨.nil, rfl⟩
  | cons l ls ih =>
    intro st e
    rw [layeredPermInit] at e
    split at e
    · cases e
    · next p hp =>
      split at e
      · cases e
      · next r hr =>
        cases e
        obtain ⟨i1, i2⟩ := ih r hr
        unfold nextInside at hp
        split at hp
        · next q qs e' hq =>
          cases hp
          refine ⟨.cons ⟨[], by simp [layerLists, hq], by simp [hq]⟩ i1, ?_⟩
          simp only [remaining, i2, List.map_cons, choices, layerLists, hq, List.flatMap_cons]
        · cases hp
        · cases hp

theorem advance_none (ls : List (Finset EId)) : ∀ (st : List LayerState), StateOf it C depth h ls st → layeredAdvance it h C depth ls st = .ok none →
    remaining it C depth h ls st = [st.map Prod.fst] := by
  induction ls with
  | nil => intro st s _; cases s; rfl
  | cons l ls ih =>
    intro st s e
    cases s with
    | cons s1 s2 =>
      rename_i x xs
      obtain ⟨p, g, g2⟩ := x
      unfold layeredAdvance at e
      split at e
      · cases e
      · cases e
      · next he =>
        have := ih _ s2 he
        split at e
        · next hg =>
          obtain ⟨rfl, -⟩ := Prod.mk.injEq _ _ _ _ ▸ hg
          simp [remaining, this]
        · cases e
        · split at e <;> cases e

theorem advance_some (ls : List (Finset EId)) : ∀ (st st' : List LayerState), StateOf it C depth h ls st → layeredAdvance it h C depth ls st = .ok (some st') →
    StateOf it C depth h ls st' ∧ remaining it C depth h ls st = st.map Prod.fst :: remaining it C depth h ls st' := by
  induction ls with
  | nil => intro st st' s e; cases s; cases e
  | cons l ls ih =>
    intro st st' s e
    cases s with
    | cons s1 s2 =>
      rename_i x xs
      obtain ⟨p, g, g2⟩ := x
      unfold layeredAdvance at e
      split at e
      · cases e
      · next st1 he =>
        cases e
        obtain ⟨i1, i2⟩ := ih _ _ s2 he
        exact ⟨.cons s1 i1, by simp [remaining, i2]⟩
      · next he =>
        have hn := advance_none it C depth ls _ s2 he
        split at e
        · cases e
        · cases e
        · next q qs e' hg =>
          obtain ⟨rfl, rfl⟩ := Prod.mk.injEq _ _ _ _ ▸ hg
          split at e
          · cases e
          · next r hr =>
            cases e
            obtain ⟨i1, i2⟩ := init_state it C depth ls r hr
            obtain ⟨pre, k1, k2⟩ := s1
            refine ⟨.cons ⟨pre ++ [p], by simpa using k1, k2⟩ i1, ?_⟩
            simp [remaining, hn, i2]

theorem loop_prefix (ls : List (Finset EId)) (hls : ls ≠ []) : ∀ (fuel : ℕ) (st : List LayerState), StateOf it C depth h ls st →
    (layeredPermLoop it h C depth ls fuel st).1 <+: remaining it C depth h ls st ∧
    ((layeredPermLoop it h C depth ls fuel st).2 = .ok () → (layeredPermLoop it h C depth ls fuel st).1 = remaining it C depth h ls st)
  | 0, st, _ => by simp [layeredPermLoop]
  | fuel + 1, st, s => by
    have hfst : ∀ ls st, StateOf it C depth h ls st → [st.map Prod.fst] <+: remaining it C depth h ls st := by
      intro ls
      induction ls with
      | nil => intro st s; cases s; exact List.prefix_refl _
      | cons l ls ih =>
        intro st s
        cases s with
        | cons s1 s2 =>
          rename_i x xs
          obtain ⟨t, ht⟩ := ih xs s2
          simp only [remaining, ← ht]
          exact ⟨_, by simp; rfl⟩
    rw [layeredPermLoop, if_neg hls]
    split
    · exact ⟨hfst ls st s, fun e => nomatch e⟩
    · next he =>
      rw [advance_none it C depth ls st s he]
      exact ⟨List.prefix_refl _, fun _ => rfl⟩
    · next st' he =>
      obtain ⟨i1, i2⟩ := advance_some it C depth ls st st' s he
      obtain ⟨j1, j2⟩ := loop_prefix ls hls fuel st' i1
      rw [i2]
      dsimp only
      exact ⟨(List.prefix_cons_inj _).2 j1, fun e => by rw [j2 e]⟩

theorem init_ok (ls : List (Finset EId)) (hl : ∀ l ∈ ls, (h.antichainPermutations it C depth l false).1 ≠ []) : ∃ st, layeredPermInit it h C depth ls = .ok st := by
  induction ls with
  | nil => exact ⟨_, rfl⟩
  | cons l ls ih =>
    obtain ⟨r, hr⟩ := ih (fun x hx => hl x (by simp [hx]))
    obtain ⟨p, ps, hp⟩ := List.exists_cons_of_ne_nil (hl l (by simp))
    rw [layeredPermInit]
    have : h.antichainPermutations it C depth l false = (p :: ps, (h.antichainPermutations it C depth l false).2) := by rw [← hp]
    rw [this]
    simp [nextInside, hr]

theorem advance_ok (ls : List (Finset EId)) (hl : ∀ l ∈ ls, (h.antichainPermutations it C depth l false).1 ≠ [] ∧ (h.antichainPermutations it C depth l false).2 = .ok ()) :
    ∀ (st : List LayerState), StateOf it C depth h ls st → ∃ o, layeredAdvance it h C depth ls st = .ok o := by
  induction ls with
  | nil => intro st s; cases s; exact ⟨_, rfl⟩
  | cons l ls ih =>
    intro st s
    cases s with
    | cons s1 s2 =>
      rename_i x xs
      obtain ⟨p, g, g2⟩ := x
      obtain ⟨o, ho⟩ := ih (fun x hx => hl x (by simp [hx])) xs s2
      obtain ⟨r, hr⟩ := init_ok it C depth ls (fun x hx => (hl x (by simp [hx])).1)
      have hg2 : g2 = .ok () := by obtain ⟨_, -, k2⟩ := s1; exact k2.trans (hl l (by simp)).2
      subst hg2
      unfold layeredAdvance
      rw [ho]
      cases o with
      | some st' => exact ⟨_, rfl⟩
      | none =>
        cases g with
        | nil => exact ⟨_, rfl⟩
        | cons q qs => exact ⟨_, by simp [hr]; rfl⟩

theorem loop_ok (ls : List (Finset EId)) (hls : ls ≠ []) (hl : ∀ l ∈ ls, (h.antichainPermutations it C depth l false).1 ≠ [] ∧ (h.antichainPermutations it C depth l false).2 = .ok ()) :
    ∀ (fuel : ℕ) (st : List LayerState), StateOf it C depth h ls st → (remaining it C depth h ls st).length ≤ fuel → (layeredPermLoop it h C depth ls fuel st).2 = .ok ()
  | 0, st, s, hf => by
    exfalso
    have := (loop_prefix it C depth ls hls 1 st s).1
    have h1 : (layeredPermLoop it h C depth ls 1 st).1.length ≠ 0 := by
      rw [layeredPermLoop, if_neg hls]
      split <;> simp
    have := this.length_le
    omega
  | fuel + 1, st, s, hf => by
    obtain ⟨o, ho⟩ := advance_ok it C depth ls hl st s
    rw [layeredPermLoop, if_neg hls, ho]
    cases o with
    | none => rfl
    | some st' =>
      obtain ⟨i1, i2⟩ := advance_some it C depth ls st st' s ho
      rw [i2, List.length_cons] at hf
      exact loop_ok ls hls hl fuel st' i1 (by omega)

end

/-! ## The theorems -/

/-- **C106, order of the results.** Let `ls` be the layers of the set (not empty).  However long `layeredPermutations` runs and however its parts fail, the contents it yields one after the other are an
initial part of all the ways to choose one list of `AntichainPermutations` per layer, in dictionary order (the last layer varies fastest); if it ends without an exception it has yielded them all. -/
theorem C106_prefix (it : Iter) (h : Heap) (C : Finset EId) (depth fuel : ℕ) (eventSet : Option (Finset EId)) (ls : List (Finset EId)) (hne : ls ≠ [])
    (hl : h.layered it C (some (eventSet.getD C)) false = .ok ls) :
    (h.layeredPermutations it C depth fuel eventSet).1 <+: choices (ls.map (fun l => (h.antichainPermutations it C depth l false).1)) ∧
    ((h.layeredPermutations it C depth fuel eventSet).2 = .ok () →
      (h.layeredPermutations it C depth fuel eventSet).1 = choices (ls.map (fun l => (h.antichainPermutations it C depth l false).1))) := by
  unfold layeredPermutations
  rw [hl]
  dsimp only
  split
  · exact ⟨List.nil_prefix, fun e => nomatch e⟩
  · next st hst =>
    obtain ⟨i1, i2⟩ := init_state it C depth ls st hst
    have := loop_prefix it C depth ls hne fuel st i1
    rw [i2] at this
    exact this

/-- **C106, completeness.** If `AntichainPermutations` yields at least one list for each layer and ends without an exception, then `layeredPermutations` ends without an exception after it has yielded every
combination, each at one time only if no layer repeats a list; their number is the product of the numbers for the layers. -/
theorem C106_all (it : Iter) (h : Heap) (C : Finset EId) (depth fuel : ℕ) (eventSet : Option (Finset EId)) (ls : List (Finset EId)) (hne : ls ≠ [])
    (hl : h.layered it C (some (eventSet.getD C)) false = .ok ls)
    (hok : ∀ l ∈ ls, (h.antichainPermutations it C depth l false).1 ≠ [] ∧ (h.antichainPermutations it C depth l false).2 = .ok ())
    (hf : (ls.map (fun l => (h.antichainPermutations it C depth l false).1.length)).prod ≤ fuel) :
    (h.layeredPermutations it C depth fuel eventSet).2 = .ok () ∧
    (h.layeredPermutations it C depth fuel eventSet).1.length = (ls.map (fun l => (h.antichainPermutations it C depth l false).1.length)).prod ∧
    (∀ c, c ∈ (h.layeredPermutations it C depth fuel eventSet).1 ↔ List.Forall₂ (fun p l => p ∈ (h.antichainPermutations it C depth l false).1) c ls) ∧
    ((∀ l ∈ ls, (h.antichainPermutations it C depth l false).1.Nodup) → (h.layeredPermutations it C depth fuel eventSet).1.Nodup) := by
  obtain ⟨st, hst⟩ := init_ok it C depth ls (fun l hl => (hok l hl).1)
  obtain ⟨i1, i2⟩ := init_state it C depth ls st hst
  have hlen : (choices (ls.map (fun l => (h.antichainPermutations it C depth l false).1))).length = (ls.map (fun l => (h.antichainPermutations it C depth l false).1.length)).prod := by
    rw [choices_length, List.map_map]; rfl
  have hend : (h.layeredPermutations it C depth fuel eventSet).2 = .ok () := by
    unfold layeredPermutations
    rw [hl]
    dsimp only
    rw [hst]
    refine loop_ok it C depth ls hne hok fuel st i1 ?_
    rw [i2]
    exact (le_of_eq hlen).trans hf
  have hall := (C106_prefix it h C depth fuel eventSet ls hne hl).2 hend
  refine ⟨hend, by rw [hall, hlen], fun c => ?_, fun hn => ?_⟩
  · rw [hall, mem_choices, List.forall₂_map_right_iff]
  · rw [hall]
    refine choices_nodup _ (fun G hG => ?_)
    obtain ⟨l, hl, rfl⟩ := List.mem_map.1 hG
    exact hn l hl

/-- **C106, contents.** Every combination that is yielded for an order-convex set has one list per layer, with at least two events, all of this layer. -/
theorem C106_contents (it : Iter) (v : h.Valid) (C : Finset EId) (depth fuel : ℕ) (s : Finset EId) (hs : OrdConvex h.Lt s) :
    ∃ ls, LayeredSpec h.Lt s ls ∧ ∀ y ∈ (h.layeredPermutations it C depth fuel (some s)).1, List.Forall₂ (fun p l => 2 ≤ p.length ∧ ∀ x ∈ p, x ∈ l) y ls := by
  obtain ⟨⟨ls, e1, sp⟩, -⟩ := C30_layered_of it v C s hs
  refine ⟨ls, sp, fun y hy => ?_⟩
  by_cases hne : ls = []
  · subst hne
    unfold layeredPermutations at hy
    simp only [Option.getD_some, e1, layeredPermInit] at hy
    cases fuel with
    | zero => simp [layeredPermLoop] at hy
    | succ n => simp [layeredPermLoop] at hy; subst hy; exact .nil
  · have := (C106_prefix it h C depth fuel (some s) ls hne e1).1.subset hy
    rw [mem_choices, List.forall₂_map_right_iff] at this
    refine this.imp (fun p l hp => ?_)
    obtain ⟨D, -, hD⟩ := C80_antichainPermutations it v C depth l false
    obtain ⟨⟨-, i, j, hi, hj, hij, -, h1, h2⟩, hx⟩ := hD p hp
    refine ⟨?_, hx⟩
    have hij := hij rfl
    match p, h1, h2 with
    | [x], h1, h2 =>
      exfalso
      simp only [List.head?_cons, List.getLast?_singleton, Option.some.injEq] at h1 h2
      have nd := it.nodup [20] l
      rw [List.getD_eq_getElem?_getD, List.getElem?_eq_getElem hi, Option.getD_some] at h1
      rw [List.getD_eq_getElem?_getD, List.getElem?_eq_getElem hj, Option.getD_some] at h2
      have := (nd.getElem_inj_iff (hi := hi) (hj := hj)).1 (h1.symm.trans h2)
      omega
    | _ :: _ :: _, _, _ => simp

/-- **C106, refuted for the empty set.** For the empty set of events the generator yields an empty list and then raises NameError (UnboundLocalError), instead of ending. -/
theorem C106_empty_refuted (it : Iter) (v : h.Valid) (C : Finset EId) (depth fuel : ℕ) :
    h.layeredPermutations it C depth (fuel + 1) (some ∅) = ([[]], .error .nameError) := by
  have : h.layered it C (some ∅) false = .ok [] := by
    obtain ⟨⟨ls, e1, sp⟩, -⟩ := C30_layered_of it v C ∅ (fun a ha => absurd ha (by simp))
    rw [e1]
    cases ls with
    | nil => rfl
    | cons l ls =>
      exfalso
      obtain ⟨x, hx⟩ := sp.nonempty l (by simp)
      have := (sp.cover x).2 ⟨l, by simp, hx⟩
      simp at this
  unfold layeredPermutations
  simp [this, layeredPermInit, layeredPermLoop]

/-! ## Two causets -/

theorem ok_of_match {α : Type} [DecidableEq α] (e : Except Err α) (a : α) (h : (match e with | .ok x => decide (x = a) | .error _ => false) = true) : e = .ok a := by
  cases e with
  | ok x => rw [of_decide_eq_true h]
  | error x => cases h

/-- three events under three others, each of the upper ones above two of the lower ones -/
def exCrown33 : Heap :=
  let h1 := (Heap.empty.newEvent Iter.asc none [] []).2
  let h2 := (h1.newEvent Iter.asc none [] []).2
  let h3 := (h2.newEvent Iter.asc none [] []).2
  let h4 := (h3.newEvent Iter.asc none [0, 1] []).2
  let h5 := (h4.newEvent Iter.asc none [1, 2] []).2
  (h5.newEvent Iter.asc none [0, 2] []).2

theorem exCrown33_reach : LinkReachable exCrown33 := by
  refine .new _ _ _ _ _ (.new _ _ _ _ _ (.new _ _ _ _ _ (.new _ _ _ _ _ (.new _ _ _ _ _ (.new _ _ _ _ _ .start ?_ ?_ ?_) ?_ ?_ ?_) ?_ ?_ ?_) ?_ ?_ ?_) ?_ ?_ ?_) ?_ ?_ ?_ <;> simp [Heap.Exists, Heap.newEvent_fst] <;> decide

/-- two events, three events and two events on top of each other; two of the events in the middle have a smaller interval around them than the third one -/
def exDouble : Heap :=
  let h1 := (Heap.empty.newEvent Iter.asc none [] []).2
  let h2 := (h1.newEvent Iter.asc none [] []).2
  let h3 := (h2.newEvent Iter.asc none [0] []).2
  let h4 := (h3.newEvent Iter.asc none [0, 1] []).2
  let h5 := (h4.newEvent Iter.asc none [0, 1] []).2
  let h6 := (h5.newEvent Iter.asc none [2, 3, 4] []).2
  (h6.newEvent Iter.asc none [3, 4] []).2

theorem exDouble_reach : LinkReachable exDouble := by
  refine .new _ _ _ _ _ (.new _ _ _ _ _ (.new _ _ _ _ _ (.new _ _ _ _ _ (.new _ _ _ _ _ (.new _ _ _ _ _ (.new _ _ _ _ _ .start ?_ ?_ ?_) ?_ ?_ ?_) ?_ ?_ ?_) ?_ ?_ ?_) ?_ ?_ ?_) ?_ ?_ ?_) ?_ ?_ ?_ <;> simp [Heap.Exists, Heap.newEvent_fst] <;> decide

theorem exCrown33_yields : exCrown33.layeredPermutations Iter.asc {0, 1, 2, 3, 4, 5} 5 10 none =
    ([[[0, 1], [3, 4]], [[0, 1], [3, 5]], [[0, 1], [4, 5]], [[0, 2], [3, 4]], [[0, 2], [3, 5]], [[0, 2], [4, 5]], [[1, 2], [3, 4]], [[1, 2], [3, 5]], [[1, 2], [4, 5]]], .ok ()) := by
  rfl

theorem exDouble_yields : exDouble.layeredPermutations Iter.asc {0, 1, 2, 3, 4, 5, 6} 5 10 none =
    ([[[0, 1], [2, 3, 4, 3], [5, 6]], [[0, 1], [2, 4, 3, 4], [5, 6]]], .ok ()) := by
  decide +kernel

/-- **C106, refuted: the lists are not permutations of the layers.** For three events under three others none of the nine combinations contains all events of a layer; for the seven events of `exDouble`
the lists for the layer {2, 3, 4} are 2, 3, 4, 3 and 2, 4, 3, 4. -/
theorem C106_permutation_refuted : LinkReachable exCrown33 ∧ LinkReachable exDouble ∧
    (∀ y ∈ (exCrown33.layeredPermutations Iter.asc {0, 1, 2, 3, 4, 5} 5 10 none).1, ∀ p ∈ y, ¬ p.toFinset = {0, 1, 2} ∧ ¬ p.toFinset = {3, 4, 5}) ∧
    exCrown33.layered Iter.asc {0, 1, 2, 3, 4, 5} none false = .ok [{0, 1, 2}, {3, 4, 5}] ∧
    (∀ y ∈ (exDouble.layeredPermutations Iter.asc {0, 1, 2, 3, 4, 5, 6} 5 10 none).1, ∃ p ∈ y, ¬ p.Nodup) ∧
    (exDouble.layeredPermutations Iter.asc {0, 1, 2, 3, 4, 5, 6} 5 10 none).1.length = 2 := by
  refine ⟨exCrown33_reach, exDouble_reach, ?_, ?_, ?_, ?_⟩
  · rw [exCrown33_yields]; decide
  · exact ok_of_match _ _ (by decide +kernel)
  · rw [exDouble_yields]; decide
  · rw [exDouble_yields]; rfl

/-- **C106, refuted for collected results.** The generator yields one list object that it changes: the nine different combinations of `exCrown33`, collected with `list(...)`, show nine times the last one.  In general
the collected entries are all equal. -/
theorem C106_list_refuted : (exCrown33.layeredPermutations Iter.asc {0, 1, 2, 3, 4, 5} 5 10 none).1.Nodup ∧
    exCrown33.layeredPermList Iter.asc {0, 1, 2, 3, 4, 5} 5 10 none = .ok (List.replicate 9 [[1, 2], [4, 5]]) ∧
    ∀ (it : Iter) (h : Heap) C depth fuel eventSet ys, h.layeredPermList it C depth fuel eventSet = .ok ys → ∀ a ∈ ys, ∀ b ∈ ys, a = b := by
  refine ⟨by rw [exCrown33_yields]; decide, ?_, ?_⟩
  · unfold layeredPermList
    rw [exCrown33_yields]
    rfl
  · intro it h C depth fuel eventSet ys e a ha b hb
    unfold layeredPermList at e
    split at e
    · cases e
    · next zs _ =>
      cases e
      obtain ⟨x, hx, rfl⟩ := List.mem_map.1 ha
      obtain ⟨y, hy, rfl⟩ := List.mem_map.1 hb
      cases zs with
      | nil => simp at hx
      | cons z zs => simp [List.getLastD_eq_getLast?, List.getLast?_eq_some_getLast]

/-- C106: the hypotheses of `C106_all` hold for the layers of `exCrown33`, with three lists each -/
theorem C106_case : exCrown33.layered Iter.asc {0, 1, 2, 3, 4, 5} (some ((none : Option (Finset EId)).getD {0, 1, 2, 3, 4, 5})) false = .ok [{0, 1, 2}, {3, 4, 5}] ∧
    exCrown33.antichainPermutations Iter.asc {0, 1, 2, 3, 4, 5} 5 {0, 1, 2} false = ([[0, 1], [0, 2], [1, 2]], .ok ()) ∧
    exCrown33.antichainPermutations Iter.asc {0, 1, 2, 3, 4, 5} 5 {3, 4, 5} false = ([[3, 4], [3, 5], [4, 5]], .ok ()) ∧
    OrdConvex exCrown33.Lt {0, 1, 2, 3, 4, 5} := by
  refine ⟨ok_of_match _ _ (by decide +kernel), by decide +kernel, by decide +kernel, fun a _ b _ x h1 _ => ?_⟩
  have h2 : x < 6 := (exCrown33_reach.valid.exists_of_lt _ _ h1).2
  simp only [Finset.mem_insert, Finset.mem_singleton]; omega

end Causets
