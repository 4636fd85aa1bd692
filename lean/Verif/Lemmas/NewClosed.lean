import Verif.Lemmas.Order
import Verif.Lemmas.NewEvent
import Verif.Model.Causet

/-! # Constructors of causets create events one after the other -/

namespace Causets

open Heap

/-! ## Constructors of causets create one event after the other -/

theorem getD_mem_list (l : List EId) {i : ℕ} (hi : i < l.length) : l.getD i 0 ∈ l := by
  rw [List.getD_eq_getElem?_getD, List.getElem?_eq_getElem hi]
  exact List.getElem_mem _

/-- `newEvent` creates one event, in every state -/
theorem newEvent_next (it : Iter) (h : Heap) (l : Option Label) (P F : List EId) : (h.newEvent it l P F).2.next = h.next + 1 := by
  have fut : ∀ (L : List EId) (e : EId) (g : Heap), (L.foldl (fun g x => (g.addToFuture x e).2) g).next = g.next := by
    intro L e
    induction L with
    | nil => intro g; rfl
    | cons x L ih =>
      intro g
      rw [List.foldl_cons, ih]
      unfold addToFuture
      split_ifs <;> rfl
  have pas : ∀ (L : List EId) (e : EId) (g : Heap), (L.foldl (fun g x => (g.addToPast x e).2) g).next = g.next := by
    intro L e
    induction L with
    | nil => intro g; rfl
    | cons x L ih =>
      intro g
      rw [List.foldl_cons, ih]
      unfold addToPast
      split_ifs <;> rfl
  unfold newEvent
  simp only [pas, fut]
  rfl

/-- `e` is an event created since the number of events was `lo` -/
def Heap.In (h : Heap) (lo : ℕ) (e : EId) : Prop := lo ≤ e ∧ h.Exists e

/-- closed under creating an event after events created since the number of events was `lo` -/
def NewClosed (lo : ℕ) (Q : Heap → Prop) : Prop :=
  ∀ (h : Heap) (it : Iter) (l : Option Label) (P : List EId), Q h → (∀ p ∈ P, h.In lo p) → Q (h.newEvent it l P []).2

namespace NewClosed

variable {lo : ℕ} {Q : Heap → Prop}

theorem newEvents (hQ : NewClosed lo Q) (hV : ∀ h, Q h → lo ≤ h.next) (it : Iter) : ∀ (l : List (Option Label × List EId)) (h : Heap), Q h → (∀ p ∈ l, ∀ x ∈ p.2, h.In lo x) →
    Q (newEvents it l h).2 ∧ (newEvents it l h).1.length = l.length ∧ (∀ e ∈ (newEvents it l h).1, (newEvents it l h).2.In lo e) ∧ h.next ≤ (newEvents it l h).2.next
  | [], h, q, _ => ⟨q, rfl, by simp [Causets.newEvents], le_rfl⟩
  | (lb, p) :: t, h, q, hp => by
    have h1 := hQ h it lb p q (hp (lb, p) (by simp))
    have hn := newEvent_next it h lb p []
    obtain ⟨a, b, c, d⟩ := newEvents hQ hV it t _ h1 (fun x hx y hy => by
      have := hp x (by simp [hx]) y hy
      unfold Heap.In Heap.Exists at *
      rw [hn]; omega)
    refine ⟨a, by simp [Causets.newEvents, b], ?_, by rw [hn] at d; simp only [Causets.newEvents]; omega⟩
    intro e he
    simp only [Causets.newEvents, List.mem_cons] at he
    rcases he with he | he
    · subst he
      unfold Heap.In Heap.Exists
      simp only [Causets.newEvents]
      have hlo := hV h q
      rw [newEvent_fst]; rw [hn] at d; omega
    · exact c e he

theorem fromPermLoop (hQ : NewClosed lo Q) (hV : ∀ h, Q h → lo ≤ h.next) (it : Iter) (fmt : LabelFormat) (P : List ℤ) :
    ∀ (n i : ℕ) (evs : List EId) (h : Heap), Q h → (∀ e ∈ evs, h.In lo e) → i + n ≤ evs.length →
    Q (fromPermLoop it fmt P n i evs h).2 ∧ ∀ evs', (fromPermLoop it fmt P n i evs h).1 = .ok evs' → ∀ e ∈ evs', (fromPermLoop it fmt P n i evs h).2.In lo e
  | 0, _, evs, _, q, he, _ => ⟨q, fun evs' e1 => by cases e1; exact he⟩
  | n + 1, i, evs, h, q, he, hi => by
    unfold Causets.fromPermLoop
    split
    · exact ⟨q, fun evs' e1 => nomatch e1⟩
    · next v _ =>
      have hP : ∀ p ∈ (permPastIdx P i (v + 1)).map (fun j => evs.getD j 0), h.In lo p := by
        intro p hp
        obtain ⟨j, hj, rfl⟩ := List.mem_map.1 hp
        have hj' : j < i := by
          unfold permPastIdx at hj
          exact List.mem_range.1 (List.mem_filter.1 hj).1
        exact he _ (getD_mem_list evs (by omega))
      refine fromPermLoop hQ hV it fmt P n (i + 1) _ _ (hQ h it _ _ q hP) ?_ (by simp; omega)
      intro e hmem
      have hn := newEvent_next it h (fmt.label (i + 1)) ((permPastIdx P i (v + 1)).map (fun j => evs.getD j 0)) []
      unfold Heap.In Heap.Exists
      rw [hn]
      rcases List.mem_or_eq_of_mem_set hmem with h1 | h1
      · have := he e h1
        unfold Heap.In Heap.Exists at this
        omega
      · have hlo := hV h q
        rw [h1, newEvent_fst]; omega

theorem fromPermutation (hQ : NewClosed lo Q) (hV : ∀ h, Q h → lo ≤ h.next) (it : Iter) (fmt : LabelFormat) (P : List ℤ) (h : Heap) (q : Q h) :
    Q (fromPermutation it fmt P h).2 ∧ ∀ x, (fromPermutation it fmt P h).1 = .ok x →
      ∃ S : Finset EId, (∀ e ∈ S, (fromPermutation it fmt P h).2.In lo e) ∧ (fromPermutation it fmt P h).2.causetInit it S = .ok x := by
  have q1 := hQ h it none [] q (by simp)
  have hn := newEvent_next it h none [] []
  have := fromPermLoop hQ hV it fmt P P.length 0 (List.replicate P.length (h.newEvent it none [] []).1) _ q1 (by
    intro e he
    have hlo := hV h q
    rw [(List.mem_replicate.1 he).2, newEvent_fst]
    unfold Heap.In Heap.Exists
    omega) (by simp)
  unfold Causets.fromPermutation
  dsimp only
  split
  · next h' heq => rw [heq] at this; exact ⟨this.1, fun x e1 => nomatch e1⟩
  · next evs h' heq =>
    rw [heq] at this
    exact ⟨this.1, fun x e1 => ⟨evs.toFinset, fun e he => this.2 evs rfl e (List.mem_toFinset.1 he), e1⟩⟩

theorem fenceLoop (hQ : NewClosed lo Q) (hV : ∀ h, Q h → lo ≤ h.next) (it : Iter) (length : ℕ) (closed : Bool) (hl : 0 < length) :
    ∀ (n k : ℕ) (loop : List EId) (s : Finset EId) (h : Heap), Q h → (∀ e ∈ loop, h.In lo e) → (∀ e ∈ s, h.In lo e) → loop.length = length →
    Q (fenceLoop it length closed n k loop s h).2 ∧ ∀ e ∈ (fenceLoop it length closed n k loop s h).1, (fenceLoop it length closed n k loop s h).2.In lo e
  | 0, _, _, _, _, q, _, hs, _ => ⟨q, hs⟩
  | n + 1, k, loop, s, h, q, he, hs, hlen => by
    unfold Causets.fenceLoop
    have hget : ∀ i < loop.length, h.In lo (loop.getD i 0) := fun i hi => he _ (getD_mem_list loop hi)
    obtain ⟨a, b, c, d⟩ := newEvents hQ hV it ((List.range length).map (fun (l : ℕ) =>
      (some (Label.int ((l : ℤ) + (k * length + 1 : ℕ))),
        if l = 0 then
          if closed then [loop.getD (loop.length - 1) 0, loop.getD 0 0] else [loop.getD 0 0]
        else [loop.getD (l - 1) 0, loop.getD l 0]))) h q (by
      intro p hp x hx
      obtain ⟨l, hl1, rfl⟩ := List.mem_map.1 hp
      have hl2 := List.mem_range.1 hl1
      dsimp only at hx
      split_ifs at hx <;> simp only [List.mem_cons, List.not_mem_nil, or_false] at hx
      · rcases hx with rfl | rfl <;> exact hget _ (by omega)
      · subst hx; exact hget _ (by omega)
      · rcases hx with rfl | rfl <;> exact hget _ (by omega))
    refine fenceLoop hQ hV it length closed hl n (k + 1) _ _ _ a c (fun e hmem => ?_) (by rw [fenceRound, b]; simp)
    rcases Finset.mem_union.1 hmem with h1 | h1
    · exact ⟨(hs e h1).1, lt_of_lt_of_le (hs e h1).2 d⟩
    · exact c e (List.mem_toFinset.1 h1)

theorem newFence (hQ : NewClosed lo Q) (hV : ∀ h, Q h → lo ≤ h.next) (it : Iter) (length height : ℤ) (closed : Bool) (h : Heap) (q : Q h) :
    Q (newFence it length height closed h).2 ∧ ∀ x, (newFence it length height closed h).1 = .ok x →
      ∃ S : Finset EId, (∀ e ∈ S, (newFence it length height closed h).2.In lo e) ∧ (newFence it length height closed h).2.causetInit it S = .ok x := by
  unfold Causets.newFence
  split_ifs with h1 h2
  · exact ⟨q, fun x e1 => ⟨∅, by simp, e1⟩⟩
  · exact fromPermutation hQ hV it _ _ h q
  · dsimp only
    obtain ⟨a, b, c, -⟩ := newEvents hQ hV it ((List.range length.toNat).map (fun (l : ℕ) => (some (Label.int ((l : ℤ) + 1)), []))) h q (by
      intro p hp x hx
      obtain ⟨l, -, rfl⟩ := List.mem_map.1 hp
      simp at hx)
    obtain ⟨f1, f2⟩ := fenceLoop hQ hV it length.toNat closed (by omega) height.toNat 1 _ _ _ a c (fun e he => c e (List.mem_toFinset.1 he)) (by rw [b]; simp)
    exact ⟨f1, fun x e1 => ⟨_, f2, e1⟩⟩

theorem simplexFaces (hQ : NewClosed lo Q) (hV : ∀ h, Q h → lo ≤ h.next) (it : Iter) (k : ℕ) : ∀ (fs : List (List EId)) (s : Finset EId) (h : Heap), Q h →
    (∀ e ∈ s, h.In lo e) → Q (simplexFaces it k fs s h).2 ∧ (∀ e ∈ (simplexFaces it k fs s h).1, (simplexFaces it k fs s h).2.In lo e)
  | [], s, h, q, he => ⟨q, he⟩
  | f :: fs, s, h, q, he => by
    unfold Causets.simplexFaces
    have hP : ∀ p ∈ it.ord [108] ((combinations (k - 1) f).foldl (fun acc pf =>
        acc ∪ s.filter (fun e => h.label e = some (.str (joinLabels h pf)))) ∅), h.In lo p := by
      intro p hp
      rw [it.mem] at hp
      have key : ∀ (l : List (List EId)) (acc : Finset EId), acc ⊆ s →
          (l.foldl (fun acc pf => acc ∪ s.filter (fun e => h.label e = some (.str (joinLabels h pf)))) acc) ⊆ s := by
        intro l
        induction l with
        | nil => intro acc ha; exact ha
        | cons x l ih =>
          intro acc ha
          exact ih _ (Finset.union_subset ha (Finset.filter_subset _ _))
      exact he p (key _ ∅ (by simp) hp)
    have q1 := hQ h it (some (.str (joinLabels h f))) _ q hP
    have hn := fun P => newEvent_next it h (some (.str (joinLabels h f))) P []
    refine simplexFaces hQ hV it k fs _ _ q1 ?_
    intro e hmem
    unfold Heap.In Heap.Exists
    simp only [simplexFace]
    rw [hn]
    rcases Finset.mem_insert.1 hmem with h1 | h1
    · have hlo := hV h q
      rw [h1, newEvent_fst]; omega
    · have := he e h1
      unfold Heap.In Heap.Exists at this
      omega

theorem simplexLoop (hQ : NewClosed lo Q) (hV : ∀ h, Q h → lo ≤ h.next) (it : Iter) (vs : List EId) : ∀ (ks : List ℕ) (s : Finset EId) (h : Heap), Q h →
    (∀ e ∈ s, h.In lo e) → Q (simplexLoop it vs ks s h).2 ∧ (∀ e ∈ (simplexLoop it vs ks s h).1, (simplexLoop it vs ks s h).2.In lo e)
  | [], s, h, q, he => ⟨q, he⟩
  | k :: ks, s, h, q, he => by
    unfold Causets.simplexLoop
    obtain ⟨a, b⟩ := simplexFaces hQ hV it k (combinations k vs) s h q he
    exact simplexLoop hQ hV it vs ks _ _ a b

theorem newSimplex (hQ : NewClosed lo Q) (hV : ∀ h, Q h → lo ≤ h.next) (it : Iter) (d : ℤ) (central : Bool) (h : Heap) (q : Q h) :
    Q (newSimplex it d central h).2 ∧ ∀ x, (newSimplex it d central h).1 = .ok x →
      ∃ S : Finset EId, (∀ e ∈ S, (newSimplex it d central h).2.In lo e) ∧ (newSimplex it d central h).2.causetInit it S = .ok x := by
  unfold Causets.newSimplex
  obtain ⟨a, b, c, -⟩ := newEvents hQ hV it ((List.range (d + 1).toNat).map (fun i => (some (Label.str (toString (i + 1))), []))) h q (by
    intro p hp x hx
    obtain ⟨l, -, rfl⟩ := List.mem_map.1 hp
    simp at hx)
  obtain ⟨a', b'⟩ := simplexLoop hQ hV it (Causets.newEvents it ((List.range (d + 1).toNat).map (fun i => (some (Label.str (toString (i + 1))), []))) h).1 ((List.range (d - 1).toNat).map (· + 2)) _ _ a (fun e he => c e (List.mem_toFinset.1 he))
  dsimp only
  split_ifs
  · have hP : ∀ p ∈ it.ord [110] _, _ := fun p hp => b' p ((it.mem _ _ _).1 hp)
    have hn := fun g lb P => newEvent_next it g lb P []
    refine ⟨hQ _ it _ _ a' hP, fun x e1 => ⟨_, fun e he => ?_, e1⟩⟩
    unfold Heap.In Heap.Exists
    rw [hn]
    rcases Finset.mem_insert.1 he with h1 | h1
    · have hlo := hV _ a'
      rw [h1, newEvent_fst]; omega
    · have := b' e h1
      unfold Heap.In Heap.Exists at this
      omega
  · exact ⟨a', fun x e1 => ⟨_, b', e1⟩⟩

end NewClosed

end Causets
