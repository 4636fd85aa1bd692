import Verif.Props.PermutedOld
import Mathlib.Algebra.BigOperators.Group.Finset.Sigma

/-! # C107 — the extended causal relations that `permuted_old` counts (causetpermutations.py:202-226, 277-285) -/

namespace Causets
open Heap

/-- **Specification.** The event `b` stands in one of the lists between (inclusively) two events that `a` precedes. -/
def BetweenFuture (lt : ℕ → ℕ → Prop) (layers : List (List ℕ)) (a b : ℕ) : Prop :=
  ∃ layer ∈ layers, ∃ (i j k b1 b2 : ℕ), i ≤ j ∧ j ≤ k ∧ layer[i]? = some b1 ∧ layer[j]? = some b ∧ layer[k]? = some b2 ∧ lt a b1 ∧ lt a b2

/-- **Specification.** The extended causal relations inside `S` for the given lists of layers: the causal relations, those to the events that stand between future events, and those that follow by transitivity. -/
inductive ExtFuture (lt : ℕ → ℕ → Prop) (S : Finset ℕ) (layers : List (List ℕ)) : ℕ → ℕ → Prop
  | causal {a b : ℕ} : lt a b → b ∈ S → ExtFuture lt S layers a b
  | between {a b : ℕ} : BetweenFuture lt layers a b → ExtFuture lt S layers a b
  | trans {a b c : ℕ} : BetweenFuture lt layers a b → ExtFuture lt S layers b c → ExtFuture lt S layers a c

namespace OldPerm

variable {h : Heap}

/-- what `i_first`, `i_last` are after a part of the list -/
def SpanInv (p : EId → Bool) (pre : List EId) (f l : ℤ) : Prop :=
  (f = 0 ∧ l = -1 ∧ ∀ x ∈ pre, p x = false) ∨
  ∃ i k : ℕ, f = i ∧ l = k ∧ i ≤ k ∧ (∃ x, pre[i]? = some x ∧ p x = true) ∧ (∃ x, pre[k]? = some x ∧ p x = true) ∧ ∀ (j : ℕ) x, pre[j]? = some x → p x = true → i ≤ j ∧ j ≤ k

theorem spanLoop_inv (p : EId → Bool) : ∀ (bs pre : List EId) (f l : ℤ), SpanInv p pre f l → SpanInv p (pre ++ bs) (spanLoop p pre.length bs (f, l)).1 (spanLoop p pre.length bs (f, l)).2
  | [], pre, f, l, hi => by simpa [spanLoop] using hi
  | b :: bs, pre, f, l, hi => by
    have hstep : SpanInv p (pre ++ [b]) (if p b then (if f > l then ((pre.length : ℤ), (pre.length : ℤ)) else (f, (pre.length : ℤ))) else (f, l)).1
        (if p b then (if f > l then ((pre.length : ℤ), (pre.length : ℤ)) else (f, (pre.length : ℤ))) else (f, l)).2 := by
      have get : ∀ (j : ℕ) x, (pre ++ [b])[j]? = some x → (pre[j]? = some x ∧ j < pre.length) ∨ (j = pre.length ∧ x = b) := by
        intro j x hj
        rcases Nat.lt_trichotomy j pre.length with hlt | rfl | hgt
        · rw [List.getElem?_append_left hlt] at hj; exact .inl ⟨hj, hlt⟩
        · right; simpa using hj.symm
        · rw [List.getElem?_append_right (by omega), List.getElem?_eq_none (by simp; omega)] at hj; cases hj
      have up : ∀ (j : ℕ) x, pre[j]? = some x → (pre ++ [b])[j]? = some x := by
        intro j x hj
        rw [List.getElem?_append_left (List.getElem?_eq_some_iff.1 hj).1]; exact hj
      rcases hi with ⟨rfl, rfl, hn⟩ | ⟨i, k, rfl, rfl, hik, hx, hy, hall⟩
      · cases hb : p b
        · left
          refine ⟨rfl, rfl, fun x hx => ?_⟩
          rcases List.mem_append.1 hx with hx | hx
          · exact hn x hx
          · simp at hx; subst hx; exact hb
        · right
          refine ⟨pre.length, pre.length, rfl, rfl, le_rfl, ⟨b, by simp, hb⟩, ⟨b, by simp, hb⟩, fun j x hj hp => ?_⟩
          rcases get j x hj with ⟨h1, -⟩ | ⟨rfl, -⟩
          · rw [hn x (List.mem_of_getElem? h1)] at hp; cases hp
          · exact ⟨le_rfl, le_rfl⟩
      · obtain ⟨y, hy1, hy2⟩ := hy
        obtain ⟨x, hx1, hx2⟩ := hx
        have hk := (List.getElem?_eq_some_iff.1 hy1).1
        cases hb : p b
        · right
          refine ⟨i, k, rfl, rfl, hik, ⟨x, up _ _ hx1, hx2⟩, ⟨y, up _ _ hy1, hy2⟩, fun j z hj hp => ?_⟩
          rcases get j z hj with ⟨h1, -⟩ | ⟨rfl, rfl⟩
          · exact hall j z h1 hp
          · rw [hb] at hp; cases hp
        · right
          rw [if_pos rfl, if_neg (by omega)]
          refine ⟨i, pre.length, rfl, rfl, by omega, ⟨x, up _ _ hx1, hx2⟩, ⟨b, by simp, hb⟩, fun j z hj hp => ?_⟩
          rcases get j z hj with ⟨h1, h2⟩ | ⟨rfl, rfl⟩
          · exact ⟨(hall j z h1 hp).1, h2.le⟩
          · exact ⟨by omega, le_rfl⟩
    have := spanLoop_inv p bs (pre ++ [b]) _ _ hstep
    rw [spanLoop]
    simpa using this

theorem span_spec (p : EId → Bool) (layer : List EId) (j : ℕ) :
    ((span p layer).1 ≤ (j : ℤ) ∧ (j : ℤ) ≤ (span p layer).2) ↔
      ∃ i k b1 b2, i ≤ j ∧ j ≤ k ∧ layer[i]? = some b1 ∧ layer[k]? = some b2 ∧ p b1 = true ∧ p b2 = true := by
  have hs : SpanInv p layer (span p layer).1 (span p layer).2 := by
    have := spanLoop_inv p layer [] 0 (-1) (.inl ⟨rfl, rfl, by simp⟩)
    simpa [span] using this
  rcases hs with ⟨h1, h2, h3⟩ | ⟨i, k, h1, h2, -, ⟨x, hx1, hx2⟩, ⟨y, hy1, hy2⟩, h6⟩
  · rw [h1, h2]
    constructor
    · intro hj; omega
    · rintro ⟨i, k, b1, b2, -, -, hb, -, hp, -⟩
      rw [h3 b1 (List.mem_of_getElem? hb)] at hp; cases hp
  · rw [h1, h2]
    constructor
    · intro hj
      exact ⟨i, k, x, y, by omega, by omega, hx1, hy1, hx2, hy2⟩
    · rintro ⟨i', k', b1, b2, hij, hjk, e1, e2, p1, p2⟩
      have a1 := h6 i' b1 e1 p1
      have a2 := h6 k' b2 e2 p2
      omega

/-- the loop with `i_first <= i <= i_last` adds the events at these places and their entries -/
theorem addSpan_spec {d : EDict} (f l : ℤ) : ∀ (bs : List EId) (i : ℕ) (s r : Finset EId), addSpan d f l i bs s = .ok r →
    ∀ x, x ∈ r ↔ x ∈ s ∨ ∃ (j : ℕ) (b : EId) (t : Finset EId), bs[j]? = some b ∧ (f ≤ ((i + j : ℕ) : ℤ) ∧ ((i + j : ℕ) : ℤ) ≤ l) ∧ d b = some t ∧ (x = b ∨ x ∈ t)
  | [], i, s, r, e, x => by
    cases e; simp
  | b :: bs, i, s, r, e, x => by
    have split' : ∀ P : ℕ → EId → Prop, (∃ (j : ℕ) (c : EId), (b :: bs)[j]? = some c ∧ P j c) ↔ P 0 b ∨ ∃ (j : ℕ) (c : EId), bs[j]? = some c ∧ P (j + 1) c := by
      intro P
      constructor
      · rintro ⟨j, c, hj, hp⟩
        cases j with
        | zero => simp at hj; subst hj; exact .inl hp
        | succ j => exact .inr ⟨j, c, by simpa using hj, hp⟩
      · rintro (hp | ⟨j, c, hj, hp⟩)
        · exact ⟨0, b, by simp, hp⟩
        · exact ⟨j + 1, c, by simpa using hj, hp⟩
    have s1 := split' (fun j c => ∃ t, (f ≤ ((i + j : ℕ) : ℤ) ∧ ((i + j : ℕ) : ℤ) ≤ l) ∧ d c = some t ∧ (x = c ∨ x ∈ t))
    have e0 : ∀ bs' : List EId, (∃ (j : ℕ) (b : EId) (t : Finset EId), bs'[j]? = some b ∧ (f ≤ ((i + j : ℕ) : ℤ) ∧ ((i + j : ℕ) : ℤ) ≤ l) ∧ d b = some t ∧ (x = b ∨ x ∈ t)) ↔
        ∃ (j : ℕ) (c : EId), bs'[j]? = some c ∧ ∃ t, (f ≤ ((i + j : ℕ) : ℤ) ∧ ((i + j : ℕ) : ℤ) ≤ l) ∧ d c = some t ∧ (x = c ∨ x ∈ t) := by
      intro bs'
      constructor
      · rintro ⟨j, c, t, h1, h2⟩; exact ⟨j, c, h1, t, h2⟩
      · rintro ⟨j, c, h1, t, h2⟩; exact ⟨j, c, t, h1, h2⟩
    rw [e0, s1]
    unfold addSpan at e
    have shift : ∀ j : ℕ, i + 1 + j = i + (j + 1) := fun j => by omega
    simp only [Nat.add_zero]
    split at e
    · next hin =>
      unfold addWith at e
      cases hd : d b with
      | none => rw [hd] at e; cases e
      | some t =>
        rw [hd] at e
        have ih := addSpan_spec f l bs (i + 1) _ r e x
        simp only [shift] at ih
        rw [ih, Finset.mem_union, Finset.mem_insert]
        constructor
        · rintro (((rfl | hx) | hx) | ⟨j, c, t', h1, h2⟩)
          · exact .inr (.inl ⟨t, hin, rfl, .inl rfl⟩)
          · exact .inl hx
          · exact .inr (.inl ⟨t, hin, rfl, .inr hx⟩)
          · exact .inr (.inr ⟨j, c, h1, t', h2⟩)
        · rintro (hx | ⟨t', -, ht, hx⟩ | ⟨j, c, h1, t', h2⟩)
          · exact .inl (.inl (.inr hx))
          · cases ht
            rcases hx with rfl | hx
            · exact .inl (.inl (.inl rfl))
            · exact .inl (.inr hx)
          · exact .inr ⟨j, c, t', h1, h2⟩
    · next hin =>
      have ih := addSpan_spec f l bs (i + 1) _ r e x
      simp only [shift] at ih
      rw [ih]
      constructor
      · rintro (hx | ⟨j, c, t', h1, h2⟩)
        · exact .inl hx
        · exact .inr (.inr ⟨j, c, h1, t', h2⟩)
      · rintro (hx | ⟨t', hc, -⟩ | ⟨j, c, h1, t', h2⟩)
        · exact .inl hx
        · exact absurd hc hin
        · exact .inr ⟨j, c, t', h1, h2⟩

theorem extFuture_spec {d : EDict} (a : EId) : ∀ (ls : List (List EId)) (s r : Finset EId), extFuture h a d ls s = .ok r →
    ∀ x, x ∈ r ↔ x ∈ s ∨ ∃ b, BetweenFuture h.Lt ls a b ∧ ∃ t, d b = some t ∧ (x = b ∨ x ∈ t)
  | [], s, r, e, x => by cases e; simp [BetweenFuture]
  | l :: ls, s, r, e, x => by
    unfold extFuture at e
    split at e
    · cases e
    · next s' e1 =>
      rw [extFuture_spec a ls s' r e x, addSpan_spec _ _ l 0 s s' e1 x]
      simp only [Nat.zero_add, span_spec]
      constructor
      · rintro ((hx | ⟨j, b, t, h1, ⟨i, k, b1, b2, hij, hjk, e2, e3, p1, p2⟩, h3, h4⟩) | ⟨b, ⟨l', hl', hb⟩, ht⟩)
        · exact .inl hx
        · exact .inr ⟨b, ⟨l, by simp, i, j, k, b1, b2, hij, hjk, e2, h1, e3, p1, p2⟩, t, h3, h4⟩
        · exact .inr ⟨b, ⟨l', by simp [hl'], hb⟩, ht⟩
      · rintro (hx | ⟨b, ⟨l', hl', i, j, k, b1, b2, hij, hjk, e2, h1, e3, p1, p2⟩, t, h3, h4⟩)
        · exact .inl (.inl hx)
        · rcases List.mem_cons.1 hl' with rfl | hl'
          · exact .inl (.inr ⟨j, b, t, h1, ⟨i, k, b1, b2, hij, hjk, e2, e3, p1, p2⟩, h3, h4⟩)
          · exact .inr ⟨b, ⟨l', hl', i, j, k, b1, b2, hij, hjk, e2, h1, e3, p1, p2⟩, t, h3, h4⟩

/-- the recursion that defines the extended relations -/
theorem extFuture_iff {lt : ℕ → ℕ → Prop} {S : Finset ℕ} {ls : List (List ℕ)} {a x : ℕ} :
    ExtFuture lt S ls a x ↔ (lt a x ∧ x ∈ S) ∨ ∃ b, BetweenFuture lt ls a b ∧ (x = b ∨ ExtFuture lt S ls b x) := by
  constructor
  · intro hx
    cases hx with
    | causal h1 h2 => exact .inl ⟨h1, h2⟩
    | between h1 => exact .inr ⟨_, h1, .inl rfl⟩
    | trans h1 h2 => exact .inr ⟨_, h1, .inr h2⟩
  · rintro (⟨h1, h2⟩ | ⟨b, h1, rfl | h2⟩)
    · exact .causal h1 h2
    · exact .between h1
    · exact .trans h1 h2

/-- a dictionary holds the extended futures (in the lists `all`) of the events of a list -/
def Holds (h : Heap) (S : Finset EId) (all : List (List EId)) (d : EDict) (l : List EId) : Prop :=
  ∀ a ∈ l, ∃ t, d a = some t ∧ ∀ x, x ∈ t ↔ ExtFuture h.Lt S all a x

theorem between_above {S : Finset EId} {low up : List (List EId)} {layer : List EId} (g : Good h S (low ++ layer :: up)) {a b : EId} (ha : a ∈ layer) :
    BetweenFuture h.Lt (low ++ layer :: up) a b ↔ BetweenFuture h.Lt up a b := by
  have no : ∀ l' ∈ low ++ [layer], ∀ c ∈ l', ¬h.Lt a c := by
    intro l' hl' c hc hac
    rcases List.mem_append.1 hl' with hl' | hl'
    · have hp := (List.pairwise_append.1 g.pair).2.2 l' hl' layer (by simp)
      have := (hp c hc a ha).2
      unfold Heap.Lt at hac
      rw [this] at hac; cases hac
    · simp at hl'; subst hl'
      have := g.anti l' (by simp) a ha c hc
      unfold Heap.Lt at hac
      rw [this] at hac; cases hac
  constructor
  · rintro ⟨l', hl', i, j, k, b1, b2, hij, hjk, e2, h1, e3, p1, p2⟩
    have : l' ∈ (low ++ [layer]) ++ up := by simpa using hl'
    rcases List.mem_append.1 this with hm | hm
    · exact absurd p1 (no l' hm b1 (List.mem_of_getElem? e2))
    · exact ⟨l', hm, i, j, k, b1, b2, hij, hjk, e2, h1, e3, p1, p2⟩
  · rintro ⟨l', hl', hr⟩
    exact ⟨l', by simp [hl'], hr⟩

theorem between_mem {lt : ℕ → ℕ → Prop} {ls : List (List ℕ)} {a b : ℕ} (hb : BetweenFuture lt ls a b) : ∃ l ∈ ls, b ∈ l := by
  obtain ⟨l, hl, i, j, k, b1, b2, -, -, -, e, -⟩ := hb
  exact ⟨l, hl, List.mem_of_getElem? e⟩

theorem extFuturesLayer_holds (v : h.Valid) {S : Finset EId} {low up : List (List EId)} {layer : List EId} (g : Good h S (low ++ layer :: up)) :
    ∀ (as : List EId) (d d' : EDict), (∀ a ∈ as, a ∈ layer) → (∀ l ∈ up, Holds h S (low ++ layer :: up) d l) → extFuturesLayer h S (layer :: up) as d = .ok d' →
    Holds h S (low ++ layer :: up) d' as ∧ (∀ l ∈ up, Holds h S (low ++ layer :: up) d' l) ∧ ∀ a ∈ layer, (∃ t, d a = some t ∧ ∀ x, x ∈ t ↔ ExtFuture h.Lt S (low ++ layer :: up) a x) →
      ∃ t, d' a = some t ∧ ∀ x, x ∈ t ↔ ExtFuture h.Lt S (low ++ layer :: up) a x
  | [], d, d', _, hd, e => by cases e; exact ⟨fun _ h => absurd h (by simp), hd, fun _ _ h => h⟩
  | a :: as, d, d', has, hd, e => by
    unfold extFuturesLayer at e
    split at e
    · cases e
    · next s e1 =>
      have ha := has a (by simp)
      have hs : ∀ x, x ∈ s ↔ ExtFuture h.Lt S (low ++ layer :: up) a x := by
        intro x
        rw [extFuture_spec a _ _ _ e1 x, extFuture_iff, Finset.mem_inter, v.future_eq]
        refine or_congr Iff.rfl ?_
        have h1 : ∀ b, BetweenFuture h.Lt (layer :: up) a b ↔ BetweenFuture h.Lt up a b := fun b => between_above (low := [])
          ⟨fun l hl => g.sub l (List.mem_append_right _ hl), fun l hl => g.anti l (List.mem_append_right _ hl), (List.pairwise_append.1 g.pair).2.1⟩ ha
        constructor
        · rintro ⟨b, hb, t, ht, hx⟩
          have hb' := (h1 b).1 hb
          obtain ⟨l, hl, hbl⟩ := between_mem hb'
          obtain ⟨t', ht', hx'⟩ := hd l hl b hbl
          rw [ht] at ht'; cases ht'
          exact ⟨b, (between_above g ha).2 hb', hx.imp id (hx' x).1⟩
        · rintro ⟨b, hb, hx⟩
          have hb' := (between_above g ha).1 hb
          obtain ⟨l, hl, hbl⟩ := between_mem hb'
          obtain ⟨t', ht', hx'⟩ := hd l hl b hbl
          exact ⟨b, (h1 b).2 hb', t', ht', hx.imp id (hx' x).2⟩
      have upd : ∀ c, (∃ t, d c = some t ∧ ∀ x, x ∈ t ↔ ExtFuture h.Lt S (low ++ layer :: up) c x) →
          ∃ t, Function.update d a (some s) c = some t ∧ ∀ x, x ∈ t ↔ ExtFuture h.Lt S (low ++ layer :: up) c x := by
        intro c hc
        by_cases hca : c = a
        · subst hca; exact ⟨s, by simp, hs⟩
        · rwa [Function.update_of_ne hca]
      obtain ⟨k1, k2, k3⟩ := extFuturesLayer_holds v g as _ d' (fun x hx => has x (by simp [hx])) (fun l hl b hb => upd b (hd l hl b hb)) e
      refine ⟨fun c hc => ?_, k2, fun c hc hcd => k3 c hc (upd c hcd)⟩
      rcases List.mem_cons.1 hc with rfl | hc
      · exact k3 c ha ⟨s, by simp, hs⟩
      · exact k1 c hc

theorem extFutures_holds (v : h.Valid) {S : Finset EId} : ∀ (up low : List (List EId)) (d : EDict), Good h S (low ++ up) → extFutures h S up = .ok d →
    ∀ l ∈ up, Holds h S (low ++ up) d l
  | [], _, _, _, _, l, hl => by simp at hl
  | layer :: up, low, d, g, e, l, hl => by
    unfold extFutures at e
    split at e
    · cases e
    · next d1 e1 =>
      have ih := extFutures_holds v up (low ++ [layer]) d1 (by simpa using g) e1
      have ih' : ∀ l ∈ up, Holds h S (low ++ layer :: up) d1 l := by simpa using ih
      obtain ⟨k1, k2, -⟩ := extFuturesLayer_holds v g layer d1 d (fun _ h => h) ih' e
      rcases List.mem_cons.1 hl with rfl | hl
      exacts [k1, k2 l hl]

theorem extendedCausals_sum {fut : EDict} (F : EId → Finset EId) : ∀ (es : List EId) (n : ℕ), extendedCausals h fut es = .ok n → (∀ e ∈ es, ∀ t, fut e = some t → t \ h.future e = F e) →
    n = (es.map (fun e => (F e).card)).sum
  | [], n, e, _ => by cases e; rfl
  | a :: es, n, e, hF => by
    unfold extendedCausals at e
    split at e
    · cases e
    · next t ht =>
      split at e
      · cases e
      · next m hm =>
        cases e
        rw [List.map_cons, List.sum_cons, hF a (by simp) t ht, extendedCausals_sum F es m hm (fun x hx => hF x (by simp [hx]))]

theorem ext_mem_S {S : Finset EId} {ls : List (List EId)} (hsub : ∀ l ∈ ls, ∀ x ∈ l, x ∈ S) {a x : EId} (hx : ExtFuture h.Lt S ls a x) : x ∈ S := by
  induction hx with
  | causal _ h2 => exact h2
  | between hb => obtain ⟨l, hl, hm⟩ := between_mem hb; exact hsub l hl _ hm
  | trans _ _ ih => exact ih

end OldPerm

open OldPerm

open Classical in
/-- **C107, the extended relations.** Let the lists of the layers be what `layeredPermutations` yields for an order-convex set `S`.  If a round of `permuted_old` has a result for them, its number of extended causal relations is the number
of pairs of events of `S` in the extended causal relation (`ExtFuture`: the causal relation, extended to the events that stand in a list between two future events, and closed under
transitivity along these) that are not causally related. -/
theorem C107_degree (it : Iter) {h : Heap} (v : h.Valid) (C : Finset EId) (depth fuel : ℕ) (S : Finset EId) (hS : OrdConvex h.Lt S) (y : List (List EId))
    (hy : y ∈ (h.layeredPermutations it C depth fuel (some S)).1) (L : List (Option EId)) (P : List ℕ) (d : ℕ) (e : h.permutedOldStep it S y = .ok (some (L, P, d))) :
    d = ((S ×ˢ S).filter (fun p => ExtFuture h.Lt S y p.1 p.2 ∧ ¬h.Lt p.1 p.2)).card := by
  obtain ⟨ls, sp, hc⟩ := C106_contents it v C depth fuel S hS
  have g := good_of_layers v sp (hc y hy)
  unfold permutedOldStep at e
  split at e
  · cases e
  · next fut e1 =>
    split at e
    · cases e
    · cases e
    · split at e
      · cases e
      · split at e
        · cases e
        · next n e2 =>
          cases e
          have hh := extFutures_holds v y [] fut (by simpa using g) e1
          have htot : ∀ a ∈ it.ord [280] S, ∀ t, fut a = some t → t \ h.future a = S.filter (fun x => ExtFuture h.Lt S y a x ∧ ¬h.Lt a x) := by
            intro a ha t ht
            have hf : a ∈ y.flatten := by
              by_contra hn
              obtain ⟨fut', e1', f1, f2⟩ := extFutures_ok y g
              -- an event outside of the lists has no entry
              have hnone : ∀ (up : List (List EId)) (d : EDict), extFutures h S up = .ok d → a ∉ up.flatten → d a = none := by
                intro up
                induction up with
                | nil => intro d e _; cases e; rfl
                | cons l up ih =>
                  intro d e hna
                  unfold extFutures at e
                  split at e
                  · cases e
                  · next d1 e1 =>
                    have h1 := ih d1 e1 (fun hm => hna (by simp only [List.flatten_cons, List.mem_append]; exact .inr hm))
                    have hl : a ∉ l := fun hm => hna (by simp [hm])
                    have key : ∀ (as : List EId) (d1 d : EDict), a ∉ as → d1 a = none → extFuturesLayer h S (l :: up) as d1 = .ok d → d a = none := by
                      intro as
                      induction as with
                      | nil => intro d1 d _ h1 e; cases e; exact h1
                      | cons b as ihb =>
                        intro d1 d hb h1 e
                        unfold extFuturesLayer at e
                        split at e
                        · cases e
                        · refine ihb _ d (fun hm => hb (by simp [hm])) ?_ e
                          rw [Function.update_of_ne (fun hab => hb (by simp [hab]))]; exact h1
                    exact key l d1 d hl h1 e
              rw [hnone y fut e1 hn] at ht; cases ht
            obtain ⟨l, hl, hal⟩ := List.mem_flatten.1 hf
            obtain ⟨t', ht', hx⟩ := hh l hl a hal
            rw [ht] at ht'; cases ht'
            ext x
            rw [Finset.mem_sdiff, Finset.mem_filter, v.future_eq, hx x]
            simp only [List.nil_append]
            constructor
            · rintro ⟨h1, h2⟩
              exact ⟨ext_mem_S g.sub h1, h1, h2⟩
            · rintro ⟨-, h1, h2⟩
              exact ⟨h1, h2⟩
          rw [extendedCausals_sum _ _ _ e2 htot]
          have hp : ((S ×ˢ S).filter (fun p => ExtFuture h.Lt S y p.1 p.2 ∧ ¬h.Lt p.1 p.2)).card = ∑ a ∈ S, (S.filter (fun x => ExtFuture h.Lt S y a x ∧ ¬h.Lt a x)).card := by
            simp only [Finset.card_eq_sum_ones, Finset.sum_filter]
            exact Finset.sum_product _ _ _
          have hto : (it.ord [280] S).toFinset = S := by ext x; simp [it.mem]
          rw [hp, ← List.sum_toFinset _ (it.nodup _ _), hto]

/-- two events, three events and two events on top of each other -/
def exRepeat : Heap :=
  let h1 := (Heap.empty.newEvent Iter.asc none [] []).2
  let h2 := (h1.newEvent Iter.asc none [] []).2
  let h3 := (h2.newEvent Iter.asc none [0] []).2
  let h4 := (h3.newEvent Iter.asc none [0] []).2
  let h5 := (h4.newEvent Iter.asc none [0, 1] []).2
  let h6 := (h5.newEvent Iter.asc none [3] []).2
  (h6.newEvent Iter.asc none [3, 4] []).2

theorem exRepeat_reach : LinkReachable exRepeat := by
  refine .new _ _ _ _ _ (.new _ _ _ _ _ (.new _ _ _ _ _ (.new _ _ _ _ _ (.new _ _ _ _ _ (.new _ _ _ _ _ (.new _ _ _ _ _ .start ?_ ?_ ?_) ?_ ?_ ?_) ?_ ?_ ?_) ?_ ?_ ?_) ?_ ?_ ?_) ?_ ?_ ?_) ?_ ?_ ?_ <;> simp [Heap.Exists, Heap.newEvent_fst] <;> decide

/-- **C107, refuted for the numbers.** For the seven events of `exRepeat` the function returns all events, but with the numbers 2, 7, 1, 5, 2, 4, 5: no permutation of 1, …, 7.  (It is also the concrete case for
`C107_degree`: there are two extended relations, of the event 1 to the events 3 and 5, because 3 stands between 4 and 4 in the list of its layer.) -/
theorem C107_numbers_refuted : LinkReachable exRepeat ∧ OrdConvex exRepeat.Lt {0, 1, 2, 3, 4, 5, 6} ∧
    exRepeat.permutedOld Iter.asc {0, 1, 2, 3, 4, 5, 6} 5 10 none 100000 = .ok ([some 0, some 2, some 1, some 4, some 3, some 5, some 6], [2, 7, 1, 5, 2, 4, 5]) ∧
    [[0, 1], [2, 4, 3, 4], [5, 6]] ∈ (exRepeat.layeredPermutations Iter.asc {0, 1, 2, 3, 4, 5, 6} 5 10 (some {0, 1, 2, 3, 4, 5, 6})).1 ∧
    exRepeat.permutedOldStep Iter.asc {0, 1, 2, 3, 4, 5, 6} [[0, 1], [2, 4, 3, 4], [5, 6]] =
      .ok (some ([some 0, some 2, some 1, some 4, some 3, some 5, some 6], [2, 7, 1, 5, 2, 4, 5], 2)) ∧
    ¬exRepeat.Lt 1 3 ∧ ExtFuture exRepeat.Lt {0, 1, 2, 3, 4, 5, 6} [[0, 1], [2, 4, 3, 4], [5, 6]] 1 3 := by
  refine ⟨exRepeat_reach, fun a _ b _ x h1 _ => ?_, by decide +kernel, by decide +kernel, by decide +kernel, by unfold Heap.Lt; decide +kernel,
    .between ⟨[2, 4, 3, 4], by simp, 1, 2, 3, 4, 4, by simp, by simp, by simp, by simp, by simp, ?_, ?_⟩⟩
  · have h2 : x < 7 := (exRepeat_reach.valid.exists_of_lt _ _ h1).2
    simp only [Finset.mem_insert, Finset.mem_singleton]; omega
  all_goals unfold Heap.Lt; decide +kernel

end Causets
