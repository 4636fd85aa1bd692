import Verif.Props.Antipaths
import Verif.Props.Permuted
import Verif.Props.Layered

/-! # C80 — `AntichainPermutations` and `layeredPermutations` (causetpermutations.py:15-30, 137-170) -/

namespace Causets
open Heap

variable {h : Heap}

theorem mem_whereMax (D : DMat) (l : ℕ) (p : ℕ × ℕ) : p ∈ whereMax D l ↔ p.1 < l ∧ p.2 < l ∧ ∀ i < l, ∀ j < l, D i j ≤ D p.1 p.2 := by
  unfold whereMax
  simp only [List.mem_filter, List.mem_flatMap, List.mem_map, List.mem_range, List.all_eq_true, decide_eq_true_eq]
  constructor
  · rintro ⟨⟨i, hi, j, hj, rfl⟩, hall⟩
    exact ⟨hi, hj, fun a ha b hb => hall (a, b) ⟨a, ha, b, hb, rfl⟩⟩
  · rintro ⟨h1, h2, hall⟩
    refine ⟨⟨p.1, h1, p.2, h2, rfl⟩, ?_⟩
    rintro _ ⟨a, ha, b, hb, rfl⟩
    exact hall a ha b hb

/-- **Specification.** A list of events of the antichain from one event to another, the two being as far apart as possible. -/
def FarPath (D : DMat) (ac : List EId) (incl : Bool) (p : List EId) : Prop :=
  (∀ x ∈ p, x ∈ ac) ∧ ∃ i j, i < ac.length ∧ j < ac.length ∧ (incl = false → i < j) ∧ (∀ a < ac.length, ∀ b < ac.length, D a b ≤ D i j) ∧
    p.head? = some (ac.getD i 0) ∧ p.getLast? = some (ac.getD j 0)

theorem antichainPermLoop_spec (it : Iter) (C : Finset EId) (depth : ℕ) (ac : List EId) (D : DMat) (incl : Bool) : ∀ (ps : List (ℕ × ℕ)) (last : Option (List EId)),
    (∀ p ∈ ps, p.1 < ac.length ∧ p.2 < ac.length ∧ ∀ a < ac.length, ∀ b < ac.length, D a b ≤ D p.1 p.2) → (∀ p, last = some p → FarPath D ac incl p) →
    ∀ p ∈ (antichainPermLoop it h C depth ac D incl ps last).1, FarPath D ac incl p := by
  intro ps
  induction ps with
  | nil => intro _ _ _ p hp; simp [antichainPermLoop] at hp
  | cons ij ps ih =>
    obtain ⟨i, j⟩ := ij
    intro last hps hlast p hp
    have hps' := fun q hq => hps q (List.mem_cons_of_mem _ hq)
    rw [antichainPermLoop] at hp
    split at hp
    · rename_i hcond
      split at hp
      · simp at hp
      · rename_i paths he
        have key : ∀ q, paths.getLast?.or last = some q → FarPath D ac incl q := by
          intro q hq
          cases hL : paths.getLast? with
          | none => rw [hL] at hq; exact hlast q (by simpa using hq)
          | some q' =>
            rw [hL] at hq
            simp at hq
            subst hq
            have hm : q' ∈ paths := List.mem_of_getLast? hL
            obtain ⟨g1, g2, g3⟩ := C41_antipaths it C depth _ _ ac (some D) paths he q' hm
            obtain ⟨k1, k2, k3⟩ := hps (i, j) (by simp)
            refine ⟨g3, i, j, k1, k2, fun hi => ?_, k3, g1, g2⟩
            subst hi
            simpa using hcond
        split at hp
        · simp at hp
        · rename_i q hq
          rcases List.mem_cons.1 hp with rfl | hp
          · exact key _ hq
          · exact ih (some q) hps' (fun p hp => by cases hp; exact key _ hq) p hp
    · exact ih last hps' hlast p hp

/-- **C80.** For every consistent state, set of events and recursion limit: every list that `AntichainPermutations` yields holds events of the set, and it leads from one event to another that is as far from it as possible in the matrix of the
'intersection' distances.  Without the global symmetry the start comes before the end in the list of the set. -/
theorem C80_antichainPermutations (it : Iter) (v : h.Valid) (C : Finset EId) (depth : ℕ) (A : Finset EId) (incl : Bool) :
    ∃ D, h.distanceMatrix it C (it.ord [20] A) "intersection" true = .ok D ∧
      ∀ p ∈ (h.antichainPermutations it C depth A incl).1, FarPath D (it.ord [20] A) incl p ∧ ∀ x ∈ p, x ∈ A := by
  obtain ⟨D, e, -⟩ := (C40_distanceMatrix it v C (it.ord [20] A) "intersection" true).1 (Or.inr rfl)
  refine ⟨D, e, fun p hp => ?_⟩
  unfold antichainPermutations at hp
  simp only [e] at hp
  split at hp
  · simp at hp
  · have := antichainPermLoop_spec it C depth _ D incl (whereMax D _) none (fun q hq => (mem_whereMax _ _ _).1 hq) (by simp) p hp
    exact ⟨this, fun x hx => (it.mem _ _ _).1 (this.1 x hx)⟩

/-- **C80, refuted for single events.** For a set of one event `AntichainPermutations` (without the global symmetry) yields nothing, although there is one permutation; with the symmetry it yields that one. -/
theorem C80_singleton_refuted (it : Iter) (v : h.Valid) (C : Finset EId) (depth : ℕ) (e : EId) :
    h.antichainPermutations it C depth {e} false = ([], .ok ()) ∧ h.antichainPermutations it C depth {e} true = ([[e]], .ok ()) := by
  have ho : it.ord [20] {e} = [e] := (ord_singleton it _ _ e).2 rfl
  obtain ⟨D, eD, -⟩ := (C40_distanceMatrix it v C [e] "intersection" true).1 (Or.inr rfl)
  have hw : whereMax D 1 = [(0, 0)] := by simp [whereMax]
  constructor
  · unfold antichainPermutations
    simp only [ho, eD]
    simp [hw, antichainPermLoop]
  · unfold antichainPermutations
    simp only [ho, eD]
    have := (C41_trivial it v C depth e e [e] (some D)).1 (by simp)
    simp [hw, antichainPermLoop, this]

/-- **C80, refuted.** If a set that is causally closed or convex has a least event, `layeredPermutations` yields no permutation of its layers, but raises RuntimeError at the first `next`. -/
theorem C80_layeredPermutations_refuted (it : Iter) (v : h.Valid) (C : Finset EId) (depth : ℕ) (s : Finset EId) (hs : OrdConvex h.Lt s) (e : EId) (he : e ∈ s)
    (hmin : ∀ x ∈ s, x ≠ e → h.Lt e x) : h.layeredPermFirst it C depth (some s) = .error .runtimeError := by
  obtain ⟨⟨ls, e1, sp⟩, -⟩ := C30_layered_of it v C s hs
  unfold layeredPermFirst
  simp only [Option.getD_some, e1]
  have hfirst : ∃ t, ls = {e} :: t := by
    unfold layered at e1
    simp only [Option.getD_some, Bool.false_eq_true, if_false, least_pastInf v he hmin] at e1
    obtain ⟨n, hn⟩ : ∃ n, s.card = n + 1 := ⟨s.card - 1, by have := Finset.card_pos.2 ⟨e, he⟩; omega⟩
    rw [hn, layeredLoop, if_neg (by simp)] at e1
    split at e1
    · exact ⟨_, (Except.ok.inj e1).symm⟩
    · simp at e1
  obtain ⟨t, rfl⟩ := hfirst
  simp [layeredPermInit, (C80_singleton_refuted it v C depth e).1, nextInside]

theorem layeredPermInit_spec (it : Iter) (v : h.Valid) (C : Finset EId) (depth : ℕ) : ∀ (ls : List (Finset EId)) (r : List (List EId × (List (List EId) × Except Err Unit))),
    layeredPermInit it h C depth ls = .ok r → List.Forall₂ (fun l p => 2 ≤ l.card ∧ p.1 ≠ [] ∧ ∀ x ∈ p.1, x ∈ l) ls r := by
  intro ls
  induction ls with
  | nil => intro r hr; rw [layeredPermInit] at hr; rw [← Except.ok.inj hr]; exact .nil
  | cons l ls ih =>
    intro r hr
    rw [layeredPermInit] at hr
    split at hr
    · simp at hr
    · rename_i p hp
      split at hr
      · simp at hr
      · rename_i r' hr'
        rw [← Except.ok.inj hr]
        refine .cons ?_ (ih r' hr')
        obtain ⟨D, -, hD⟩ := C80_antichainPermutations it v C depth l false
        unfold nextInside at hp
        split at hp
        · rename_i q qs e' hq
          rw [← Except.ok.inj hp]
          have hmem : q ∈ (h.antichainPermutations it C depth l false).1 := by rw [hq]; simp
          obtain ⟨⟨-, i, j, hi, hj, hij, -, hh, -⟩, hx⟩ := hD q hmem
          refine ⟨?_, ?_, hx⟩
          · have := hij rfl
            have hlen : (it.ord [20] l).length = l.card := by
              rw [← List.toFinset_card_of_nodup (it.nodup [20] l)]
              congr 1
              ext x; simp [it.mem]
            omega
          · intro h0
            simp only at h0
            rw [h0] at hh; simp at hh
        · simp at hp
        · simp at hp

/-- **C80.** Whatever the first `next` of `layeredPermutations` yields has one non-empty list per layer, with events of this layer, and every layer has at least two events. -/
theorem C80_layeredPermutations (it : Iter) (v : h.Valid) (C : Finset EId) (depth : ℕ) (eventSet : Option (Finset EId)) (perm : List (List EId))
    (hp : h.layeredPermFirst it C depth eventSet = .ok perm) :
    ∃ ls, h.layered it C eventSet false = .ok ls ∧ List.Forall₂ (fun l p => 2 ≤ l.card ∧ p ≠ [] ∧ ∀ x ∈ p, x ∈ l) ls perm := by
  unfold layeredPermFirst at hp
  have hs : h.layered it C (some (eventSet.getD C)) false = h.layered it C eventSet false := by
    unfold layered; cases eventSet <;> rfl
  rw [hs] at hp
  split at hp
  · simp at hp
  · rename_i ls hls
    refine ⟨ls, hls, ?_⟩
    split at hp
    · simp at hp
    · rename_i r hr
      rw [← Except.ok.inj hp]
      have := layeredPermInit_spec it v C depth ls r hr
      rw [List.forall₂_map_right_iff]
      exact this

/-- C80: the diamond has a least event, so there is no permutation of its layers; the two layers of the N have one. -/
example (it : Iter) (C : Finset EId) (depth : ℕ) : exDiamond.layeredPermFirst it C depth (some {0, 1, 2, 3}) = .error .runtimeError :=
  C80_layeredPermutations_refuted it exDiamond_valid C depth _ (fun a _ b _ x h1 _ => by
    have h2 : x < 4 := (exDiamond_valid.exists_of_lt _ _ h1).2
    simp only [Finset.mem_insert, Finset.mem_singleton]; omega) 0 (by decide) (by decide)
example : exN.layeredPermFirst Iter.asc {0, 1, 2, 3} 5 none = .ok [[0, 1], [2, 3]] := by rfl

end Causets
