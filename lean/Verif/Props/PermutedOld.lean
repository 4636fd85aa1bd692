import Verif.Props.LayeredPerm

/-! # C107 — `permuted_old` (causetpermutations.py:173-290) -/

namespace Causets
open Heap

namespace OldPerm

variable {h : Heap}

/-! ## The extended pasts and futures -/

theorem spanLoop_none (p : EId → Bool) : ∀ (bs : List EId) (i : ℕ) (s : ℤ × ℤ), (∀ b ∈ bs, p b = false) → spanLoop p i bs s = s
  | [], _, _, _ => rfl
  | b :: bs, i, (f, l), hp => by
    rw [spanLoop, hp b (by simp)]
    exact spanLoop_none p bs _ _ (fun x hx => hp x (by simp [hx]))

theorem span_none (p : EId → Bool) (layer : List EId) (hp : ∀ b ∈ layer, p b = false) : span p layer = (0, -1) := spanLoop_none p layer 0 _ hp

theorem addSpan_empty (d : EDict) : ∀ (bs : List EId) (i : ℕ) (s : Finset EId), addSpan d 0 (-1) i bs s = .ok s
  | [], _, _ => rfl
  | b :: bs, i, s => by
    rw [addSpan, if_neg (by omega)]
    exact addSpan_empty d bs _ s

/-- the entries of the dictionary for the events of a list exist, and the events and the entries have a property -/
def Has (d : EDict) (Q : EId → Prop) (bs : List EId) : Prop := ∀ b ∈ bs, ∃ t, d b = some t ∧ Q b ∧ ∀ x ∈ t, Q x

theorem addWith_ok {d : EDict} {Q : EId → Prop} {b : EId} {t s : Finset EId} (hd : d b = some t) (hb : Q b) (ht : ∀ x ∈ t, Q x) (hs : ∀ x ∈ s, Q x) :
    ∃ r, addWith d b s = .ok r ∧ ∀ x ∈ r, Q x := by
  unfold addWith
  rw [hd]
  refine ⟨_, rfl, fun x hx => ?_⟩
  rcases Finset.mem_union.1 hx with hx | hx
  · rcases Finset.mem_insert.1 hx with rfl | hx
    exacts [hb, hs x hx]
  · exact ht x hx

theorem addAll_ok {d : EDict} {Q : EId → Prop} : ∀ (bs : List EId) (s : Finset EId), Has d Q bs → (∀ x ∈ s, Q x) → ∃ r, addAll d bs s = .ok r ∧ ∀ x ∈ r, Q x
  | [], s, _, hs => ⟨s, rfl, hs⟩
  | b :: bs, s, hd, hs => by
    obtain ⟨t, k1, k2, k3⟩ := hd b (by simp)
    obtain ⟨r, e, hr⟩ := addWith_ok k1 k2 k3 hs
    rw [addAll, e]
    exact addAll_ok bs r (fun x hx => hd x (by simp [hx])) hr

theorem addSpan_ok {d : EDict} {Q : EId → Prop} (f l : ℤ) : ∀ (bs : List EId) (i : ℕ) (s : Finset EId), Has d Q bs → (∀ x ∈ s, Q x) → ∃ r, addSpan d f l i bs s = .ok r ∧ ∀ x ∈ r, Q x
  | [], _, s, _, hs => ⟨s, rfl, hs⟩
  | b :: bs, i, s, hd, hs => by
    have hd' : Has d Q bs := fun x hx => hd x (by simp [hx])
    rw [addSpan]
    split
    · obtain ⟨t, k1, k2, k3⟩ := hd b (by simp)
      obtain ⟨r, e, hr⟩ := addWith_ok k1 k2 k3 hs
      rw [e]
      exact addSpan_ok f l bs _ r hd' hr
    · exact addSpan_ok f l bs _ s hd' hs

theorem extFuture_ok {d : EDict} {Q : EId → Prop} (a : EId) : ∀ (ls : List (List EId)) (s : Finset EId), (∀ l ∈ ls, Has d Q l) → (∀ x ∈ s, Q x) →
    ∃ r, extFuture h a d ls s = .ok r ∧ ∀ x ∈ r, Q x
  | [], s, _, hs => ⟨s, rfl, hs⟩
  | l :: ls, s, hd, hs => by
    obtain ⟨r, e, hr⟩ := addSpan_ok (span (fun b => h.lt a b) l).1 (span (fun b => h.lt a b) l).2 l 0 s (hd l (by simp)) hs
    rw [extFuture, e]
    exact extFuture_ok a ls r (fun x hx => hd x (by simp [hx])) hr

theorem extFuturesLayer_ok {S : Finset EId} {layer : List EId} {ls : List (List EId)} (hanti : ∀ a ∈ layer, ∀ b ∈ layer, h.lt a b = false) :
    ∀ (as : List EId) (d : EDict), (∀ a ∈ as, a ∈ layer) → (∀ a ∈ layer, a ∈ S) → (∀ l ∈ ls, Has d (· ∈ S) l) → (∀ x t, d x = some t → ∀ y ∈ t, y ∈ S) →
    ∃ d', extFuturesLayer h S (layer :: ls) as d = .ok d' ∧ Has d' (· ∈ S) as ∧ (∀ l ∈ ls, Has d' (· ∈ S) l) ∧ (∀ x t, d' x = some t → ∀ y ∈ t, y ∈ S) ∧
      ∀ x, (d x).isSome → (d' x).isSome
  | [], d, _, _, hd, hv => ⟨d, rfl, fun _ h => absurd h (by simp), hd, hv, fun _ h => h⟩
  | a :: as, d, has, hl, hd, hv => by
    have ha := has a (by simp)
    obtain ⟨r, e, hr⟩ := extFuture_ok (h := h) (d := d) (Q := (· ∈ S)) a ls (h.future a ∩ S) hd (fun x hx => (Finset.mem_inter.1 hx).2)
    have e' : extFuture h a d (layer :: ls) (h.future a ∩ S) = .ok r := by
      rw [extFuture, span_none _ _ (fun b hb => hanti a ha b hb), addSpan_empty]
      exact e
    have hv' : ∀ x t, Function.update d a (some r) x = some t → ∀ y ∈ t, y ∈ S := by
      intro x t ht
      by_cases hx : x = a
      · subst hx; rw [Function.update_self] at ht; cases ht; exact hr
      · rw [Function.update_of_ne hx] at ht; exact hv x t ht
    have hmono : ∀ x, (d x).isSome → (Function.update d a (some r) x).isSome := by
      intro x hx
      by_cases hxa : x = a
      · subst hxa; simp
      · rwa [Function.update_of_ne hxa]
    have hd' : ∀ l ∈ ls, Has (Function.update d a (some r)) (· ∈ S) l := by
      intro l hl b hb
      obtain ⟨t, k1, k2, -⟩ := hd l hl b hb
      obtain ⟨t', ht'⟩ := Option.isSome_iff_exists.1 (hmono b (by simp [k1]))
      exact ⟨t', ht', k2, hv' _ _ ht'⟩
    obtain ⟨d', f1, f2, f3, f4, f5⟩ := extFuturesLayer_ok hanti as _ (fun x hx => has x (by simp [hx])) hl hd' hv'
    refine ⟨d', ?_, ?_, f3, f4, fun x hx => f5 x (hmono x hx)⟩
    · rw [extFuturesLayer, e']
      exact f1
    · intro b hb
      rcases List.mem_cons.1 hb with rfl | hb
      · obtain ⟨t', ht'⟩ := Option.isSome_iff_exists.1 (f5 b (by simp))
        exact ⟨t', ht', hl b ha, f4 _ _ ht'⟩
      · exact f2 b hb

/-- the layers: events of the set, no relations in a layer, and an event of a higher layer is neither in nor below a lower one -/
structure Good (h : Heap) (S : Finset EId) (layers : List (List EId)) : Prop where
  sub : ∀ l ∈ layers, ∀ x ∈ l, x ∈ S
  anti : ∀ l ∈ layers, ∀ a ∈ l, ∀ b ∈ l, h.lt a b = false
  pair : layers.Pairwise (fun lo up => ∀ a ∈ lo, ∀ b ∈ up, a ≠ b ∧ h.lt b a = false)

theorem Good.tail {S : Finset EId} {l : List EId} {ls : List (List EId)} (g : Good h S (l :: ls)) : Good h S ls :=
  ⟨fun x hx => g.sub x (by simp [hx]), fun x hx => g.anti x (by simp [hx]), (List.pairwise_cons.1 g.pair).2⟩

theorem extFutures_ok {S : Finset EId} : ∀ (ls : List (List EId)), Good h S ls →
    ∃ d, extFutures h S ls = .ok d ∧ (∀ l ∈ ls, Has d (· ∈ S) l) ∧ ∀ x t, d x = some t → ∀ y ∈ t, y ∈ S
  | [], _ => ⟨_, rfl, by simp, fun _ _ h => nomatch h⟩
  | l :: ls, g => by
    obtain ⟨d, e, d1, d2⟩ := extFutures_ok ls g.tail
    obtain ⟨d', f1, f2, f3, f4, -⟩ := extFuturesLayer_ok (h := h) (g.anti l (by simp)) l d (fun _ h => h) (g.sub l (by simp)) d1 d2
    refine ⟨d', ?_, fun x hx => ?_, f4⟩
    · rw [extFutures, e]; exact f1
    · rcases List.mem_cons.1 hx with rfl | hx
      exacts [f2, f3 x hx]

theorem extPast_ok {S : Finset EId} {fut d : EDict} {Q : EId → Prop} (b : EId) (first : Bool) : ∀ (lower : List (List EId)) (s right : Finset EId),
    (∀ l ∈ lower, Has d Q l) → (∀ l ∈ lower, Has fut (· ∈ S) l) → (∀ x ∈ s, Q x) → (∀ x ∈ right, x ∈ S) →
    ∃ r right', extPast h b first fut d lower s right = .ok (r, right') ∧ (∀ x ∈ r, Q x) ∧ ∀ x ∈ right', x ∈ S
  | [], s, right, _, _, hs, hr => ⟨s, right, rfl, hs, hr⟩
  | l :: ls, s, right, hd, hf, hs, hr => by
    obtain ⟨r, e, hr1⟩ := addSpan_ok (span (fun a => h.lt a b) l).1 (span (fun a => h.lt a b) l).2 l 0 s (hd l (by simp)) hs
    have : ∃ right', (if first && decide (0 < (span (fun a => h.lt a b) l).1) then addAll fut (l.take (span (fun a => h.lt a b) l).1.toNat) right else .ok right) = .ok right' ∧
        ∀ x ∈ right', x ∈ S := by
      split
      · exact addAll_ok _ _ (fun x hx => hf l (by simp) x (List.mem_of_mem_take hx)) hr
      · exact ⟨right, rfl, hr⟩
    obtain ⟨right', e2, hr2⟩ := this
    rw [extPast, e]
    dsimp only
    rw [e2]
    exact extPast_ok b first ls r right' (fun x hx => hd x (by simp [hx])) (fun x hx => hf x (by simp [hx])) hr1 hr2

theorem extPastsLayer_ok {S : Finset EId} {fut : EDict} {Q : EId → Prop} {lower : List (List EId)} (hf : ∀ l ∈ lower, Has fut (· ∈ S) l) :
    ∀ (bs : List EId) (first : Bool) (d : EDict) (right : Finset EId), (∀ l ∈ lower, Has d Q l) → (∀ b ∈ bs, ∀ x ∈ h.past b ∩ S, Q x) → (∀ x ∈ right, x ∈ S) →
    ∃ d' right', extPastsLayer h S fut lower first bs d right = .ok (d', right') ∧ (∀ l ∈ lower, Has d' Q l) ∧ (∀ b ∈ bs, ∃ t, d' b = some t ∧ ∀ x ∈ t, Q x) ∧
      (∀ x ∈ right', x ∈ S) ∧ ∀ b t, d b = some t → (∀ x ∈ t, Q x) → ∃ t', d' b = some t' ∧ ∀ x ∈ t', Q x
  | [], _, d, right, hd, _, hr => ⟨d, right, rfl, hd, by simp, hr, fun b t e q => ⟨t, e, q⟩⟩
  | b :: bs, first, d, right, hd, hb, hr => by
    obtain ⟨r, right1, e, q1, q2⟩ := extPast_ok (h := h) b first lower (h.past b ∩ S) right hd hf (hb b (by simp)) hr
    have keep : ∀ b' t, d b' = some t → (∀ x ∈ t, Q x) → ∃ t', Function.update d b (some r) b' = some t' ∧ ∀ x ∈ t', Q x := by
      intro b' t e' q
      by_cases hx : b' = b
      · subst hx; exact ⟨r, by simp, q1⟩
      · exact ⟨t, by rwa [Function.update_of_ne hx], q⟩
    have hd' : ∀ l ∈ lower, Has (Function.update d b (some r)) Q l := by
      intro l hl a ha
      obtain ⟨t, k1, k2, k3⟩ := hd l hl a ha
      obtain ⟨t', k4, k5⟩ := keep a t k1 k3
      exact ⟨t', k4, k2, k5⟩
    obtain ⟨d', right', f1, f2, f3, f4, f5⟩ := extPastsLayer_ok hf bs false _ right1 hd' (fun x hx => hb x (by simp [hx])) q2
    refine ⟨d', right', ?_, f2, ?_, f4, ?_⟩
    · rw [extPastsLayer, e]; exact f1
    · intro x hx
      rcases List.mem_cons.1 hx with rfl | hx
      · exact f5 x r (by simp) q1
      · exact f3 x hx
    · intro b' t e' q
      obtain ⟨t', k4, k5⟩ := keep b' t e' q
      exact f5 b' t' k4 k5

/-! ## The places -/

/-- what holds for `L_this` and `P_this` when the events of the list `done` have their places -/
structure Placed (n : ℕ) (done : List EId) (L : List (Option EId)) (P : List ℕ) : Prop where
  lenL : L.length = n
  lenP : P.length = n
  empty : ∀ v : ℕ, P[v]? = some 0 ↔ L[v]? = some none
  le : ∀ u ∈ P, u ≤ n
  mem : ∀ e, some e ∈ L → e ∈ done
  once : done.Nodup → ∀ (v w : ℕ) (e : EId), L[v]? = some (some e) → L[w]? = some (some e) → v = w

theorem placeLayer_ok {S : Finset EId} {fut past : EDict} (hfut : ∀ x t, fut x = some t → ∀ y ∈ t, y ∈ S) :
    ∀ (es : List EId) (right : Finset EId) (done : List EId) (L : List (Option EId)) (P : List ℕ), Placed S.card done L P → (∀ x ∈ right, x ∈ S) → (∀ e ∈ es, e ∈ S) →
    (∀ e ∈ es, ∃ t, past e = some t ∧ e ∉ t ∧ ∀ x ∈ t, x ∈ S) → (∀ e ∈ es, (fut e).isSome) →
    ∃ L' P', placeLayer S fut past es right (L, P) = .ok (L', P') ∧ Placed S.card (done ++ es) L' P'
  | [], _, done, L, P, pl, _, _, _, _ => ⟨L, P, rfl, by simpa using pl⟩
  | e :: es, right, done, L, P, pl, hr, hes, hp, hf => by
    obtain ⟨pe, k1, k2, k3⟩ := hp e (by simp)
    obtain ⟨fe, k4⟩ := Option.isSome_iff_exists.1 (hf e (by simp))
    have heS := hes e (by simp)
    rw [placeLayer, k1, k4]
    dsimp only
    set cone := insert e (pe ∪ fe) with hcone
    have hconeS : ∀ x ∈ cone, x ∈ S := by
      intro x hx
      rcases Finset.mem_insert.1 hx with rfl | hx
      · exact heS
      · exact (Finset.mem_union.1 hx).elim (k3 x) (hfut e fe k4 x)
    have hpc : ∀ x ∈ pe, x ∈ cone := fun x hx => Finset.mem_insert_of_mem (Finset.mem_union_left _ hx)
    have hec : e ∈ cone := Finset.mem_insert_self _ _
    have bound : ∀ t : Finset EId, (∀ x ∈ t, x ∈ S ∧ x ∉ cone) → pe.card + t.card + 1 ≤ S.card := by
      intro t ht
      have d1 : Disjoint pe t := Finset.disjoint_left.2 (fun x hx hx' => (ht x hx').2 (hpc x hx))
      have d2 : e ∉ pe ∪ t := by
        intro hx
        rcases Finset.mem_union.1 hx with hx | hx
        exacts [k2 hx, (ht e hx).2 hec]
      rw [← Finset.card_union_of_disjoint d1, ← Finset.card_insert_of_notMem d2]
      refine Finset.card_le_card (fun x hx => ?_)
      rcases Finset.mem_insert.1 hx with rfl | hx
      · exact heS
      · exact (Finset.mem_union.1 hx).elim (k3 x) (fun hx => (ht x hx).1)
    have hv := bound (right \ cone) (fun x hx => ⟨hr x (Finset.mem_sdiff.1 hx).1, (Finset.mem_sdiff.1 hx).2⟩)
    have hu := bound ((S \ (right \ cone)) \ cone) (fun x hx => ⟨(Finset.mem_sdiff.1 (Finset.mem_sdiff.1 hx).1).1, (Finset.mem_sdiff.1 hx).2⟩)
    generalize pe.card + (right \ cone).card = v at hv ⊢
    generalize pe.card + ((S \ (right \ cone)) \ cone).card = u at hu ⊢
    rw [if_pos (by rw [pl.lenL]; omega)]
    have pl' : Placed S.card (done ++ [e]) (L.set v (some e)) (P.set v (u + 1)) := by
      have hLv : v < L.length := by rw [pl.lenL]; omega
      have hPv : v < P.length := by rw [pl.lenP]; omega
      refine ⟨by rw [List.length_set, pl.lenL], by rw [List.length_set, pl.lenP], fun w => ?_, fun x hx => ?_, fun x hx => ?_, fun hn w w' x hw hw' => ?_⟩
      · by_cases hw : v = w
        · subst hw; simp [hLv, hPv]
        · rw [List.getElem?_set_ne hw, List.getElem?_set_ne hw]; exact pl.empty w
      · rcases List.mem_or_eq_of_mem_set hx with hx | rfl
        exacts [pl.le x hx, hu]
      · rcases List.mem_or_eq_of_mem_set hx with hx | hx
        · simp [pl.mem x hx]
        · cases hx; simp
      · have hn' := List.nodup_append.1 hn
        have hne : ∀ w : ℕ, L[w]? ≠ some (some e) := fun w hw => hn'.2.2 e (pl.mem e (List.mem_of_getElem? hw)) e (by simp) rfl
        by_cases h1 : v = w <;> by_cases h2 : v = w'
        · omega
        · subst h1
          rw [List.getElem?_set_ne h2] at hw'
          simp only [List.getElem?_set_self hLv, Option.some.injEq] at hw
          subst hw
          exact absurd hw' (hne w')
        · subst h2
          rw [List.getElem?_set_ne h1] at hw
          simp only [List.getElem?_set_self hLv, Option.some.injEq] at hw'
          subst hw'
          exact absurd hw (hne w)
        · rw [List.getElem?_set_ne h1] at hw
          rw [List.getElem?_set_ne h2] at hw'
          exact pl.once hn'.1 w w' x hw hw'
    obtain ⟨L', P', q1, q2⟩ := placeLayer_ok hfut es ((right \ cone) ∪ cone) (done ++ [e]) _ _ pl'
      (fun x hx => (Finset.mem_union.1 hx).elim (fun hx => hr x (Finset.mem_sdiff.1 hx).1) (hconeS x)) (fun x hx => hes x (by simp [hx]))
      (fun x hx => hp x (by simp [hx])) (fun x hx => hf x (by simp [hx]))
    exact ⟨L', P', q1, by simpa using q2⟩

theorem placeLayers_ok {S : Finset EId} {fut : EDict} (hfut : ∀ x t, fut x = some t → ∀ y ∈ t, y ∈ S) :
    ∀ (rest lower : List (List EId)) (d : EDict) (done : List EId) (L : List (Option EId)) (P : List ℕ), Good h S (lower.reverse ++ rest) →
    (∀ l ∈ lower.reverse ++ rest, Has fut (· ∈ S) l) → (∀ l ∈ lower, Has d (fun x => x ∈ S ∧ ∀ l' ∈ rest, x ∉ l') l) → Placed S.card done L P →
    ∃ L' P', placeLayers h S fut lower rest d (L, P) = .ok (L', P') ∧ Placed S.card (done ++ rest.flatten) L' P'
  | [], _, _, done, L, P, _, _, _, pl => ⟨L, P, rfl, by simpa using pl⟩
  | layer :: rest, lower, d, done, L, P, g, hf, hd, pl => by
    obtain ⟨g1, g2, g3⟩ := List.pairwise_append.1 g.pair
    obtain ⟨g4, g5⟩ := List.pairwise_cons.1 g2
    have hlay : ∀ x ∈ layer, x ∈ S := g.sub layer (by simp)
    obtain ⟨d', right, f1, f2, f3, f4, -⟩ := extPastsLayer_ok (h := h) (S := S) (fut := fut) (Q := fun x => x ∈ S ∧ ∀ l' ∈ layer :: rest, x ∉ l') (lower := lower)
      (fun l hl => hf l (by simp [hl])) layer true d ∅ hd (by
        intro b hb x hx
        obtain ⟨hx1, hx2⟩ := Finset.mem_inter.1 hx
        have hlt : h.lt x b = true := by unfold Heap.lt; exact decide_eq_true hx1
        refine ⟨hx2, fun l' hl' hxl => ?_⟩
        rcases List.mem_cons.1 hl' with rfl | hl'
        · have := g.anti l' (by simp) x hxl b hb
          rw [hlt] at this; cases this
        · have := (g4 l' hl' b hb x hxl).2
          rw [hlt] at this; cases this) (by simp)
    obtain ⟨L1, P1, p1, p2⟩ := placeLayer_ok (S := S) (fut := fut) (past := d') hfut layer right done L P pl f4 hlay (by
        intro e he
        obtain ⟨t, k1, k2⟩ := f3 e he
        exact ⟨t, k1, fun h => (k2 e h).2 layer (by simp) he, fun x hx => (k2 x hx).1⟩) (by
        intro e he
        obtain ⟨t, k1, -⟩ := hf layer (by simp) e he
        simp [k1])
    have hl2 : (layer :: lower).reverse ++ rest = lower.reverse ++ layer :: rest := by simp
    obtain ⟨L', P', q1, q2⟩ := placeLayers_ok hfut rest (layer :: lower) d' (done ++ layer) L1 P1 (by rw [hl2]; exact g) (by rw [hl2]; exact hf) (by
        intro l hl
        rcases List.mem_cons.1 hl with rfl | hl
        · intro b hb
          obtain ⟨t, k1, k2⟩ := f3 b hb
          refine ⟨t, k1, ⟨hlay b hb, fun l' hl' hbl => (g4 l' hl' b hb b hbl).1 rfl⟩, fun x hx => ⟨(k2 x hx).1, fun l' hl' => (k2 x hx).2 l' (by simp [hl'])⟩⟩
        · intro a ha
          obtain ⟨t, k1, k2, k3⟩ := f2 l hl a ha
          exact ⟨t, k1, ⟨k2.1, fun l' hl' => k2.2 l' (by simp [hl'])⟩, fun x hx => ⟨(k3 x hx).1, fun l' hl' => (k3 x hx).2 l' (by simp [hl'])⟩⟩) p2
    refine ⟨L', P', ?_, by simpa using q2⟩
    rw [placeLayers, f1]
    dsimp only
    rw [p1]
    exact q1

theorem extendedCausals_ok (fut : EDict) : ∀ (es : List EId), (∀ e ∈ es, (fut e).isSome) → ∃ n, extendedCausals h fut es = .ok n
  | [], _ => ⟨0, rfl⟩
  | e :: es, hf => by
    obtain ⟨t, ht⟩ := Option.isSome_iff_exists.1 (hf e (by simp))
    obtain ⟨n, hn⟩ := extendedCausals_ok fut es (fun x hx => hf x (by simp [hx]))
    rw [extendedCausals, ht, hn]
    exact ⟨_, rfl⟩

theorem extendedCausals_err (fut : EDict) : ∀ (es : List EId) (x : Err), extendedCausals h fut es = .error x → x = .keyError
  | [], _, e => nomatch e
  | a :: es, x, e => by
    rw [extendedCausals] at e
    split at e
    · cases e; rfl
    · split at e
      · next he => cases e; exact extendedCausals_err fut es _ he
      · cases e

/-- **Specification.** `L` holds `n` events of `S` and `P` as many numbers from 1 to `n`. -/
def Coordinates (S : Finset EId) (L : List (Option EId)) (P : List ℕ) : Prop :=
  P.length = S.card ∧ (∀ u ∈ P, 1 ≤ u ∧ u ≤ S.card) ∧ ∃ M : List EId, L = M.map some ∧ M.length = S.card ∧ ∀ x ∈ M, x ∈ S

/-- one round -/
theorem step_spec (it : Iter) {S : Finset EId} {layers : List (List EId)} (g : Good h S layers) :
    (∀ x, permutedOldStep it h S layers = .error x → x = .keyError ∧ ∃ e ∈ S, e ∉ layers.flatten) ∧
    (∀ L P n, permutedOldStep it h S layers = .ok (some (L, P, n)) → Coordinates S L P ∧ (layers.flatten.Nodup → ∃ M : List EId, L = M.map some ∧ M.Nodup ∧ M.toFinset = S)) := by
  obtain ⟨fut, e1, f1, f2⟩ := extFutures_ok layers g
  obtain ⟨L, P, e2, pl⟩ := placeLayers_ok (h := h) f2 layers [] (fun _ => none) [] (List.replicate S.card none) (List.replicate S.card 0) (by simpa using g)
    (by simpa using f1) (by simp) ⟨by simp, by simp, fun v => by simp [List.getElem?_replicate], by simp [List.mem_replicate], by simp [List.mem_replicate], by
      intro _ v w e hv; simp [List.getElem?_replicate] at hv⟩
  unfold permutedOldStep
  rw [e1]
  dsimp only
  rw [e2]
  dsimp only
  constructor
  · intro x hx
    split at hx
    · cases hx
    · split at hx
      · next he =>
        cases hx
        refine ⟨extendedCausals_err fut _ _ he, ?_⟩
        by_contra hc
        push Not at hc
        obtain ⟨n, hn⟩ := extendedCausals_ok (h := h) fut (it.ord [280] S) (fun e hx => by
          obtain ⟨l, hl, hel⟩ := List.mem_flatten.1 (hc e ((it.mem _ _ _).1 hx))
          obtain ⟨t, k1, -⟩ := f1 l hl e hel
          simp [k1])
        rw [hn] at he; cases he
      · cases hx
  · intro L' P' n hx
    split at hx
    · cases hx
    · next h0 =>
      split at hx
      · cases hx
      · cases hx
        have hnone : none ∉ L := by
          intro hm
          obtain ⟨v, hv⟩ := List.getElem?_of_mem hm
          exact h0 (List.mem_of_getElem? ((pl.empty v).2 hv))
        obtain ⟨M, hM⟩ : ∃ M : List EId, L = M.map some := by
          clear e2 pl
          induction L with
          | nil => exact ⟨[], rfl⟩
          | cons x L ih =>
            simp only [List.mem_cons, not_or] at hnone
            obtain ⟨M, rfl⟩ := ih hnone.2
            cases x with
            | none => exact absurd rfl hnone.1
            | some x => exact ⟨x :: M, rfl⟩
        have hlen : M.length = S.card := by rw [← pl.lenL, hM, List.length_map]
        have hsub : ∀ x ∈ M, x ∈ S := by
          intro x hx
          have := pl.mem x (by rw [hM]; exact List.mem_map_of_mem hx)
          obtain ⟨l, hl, hxl⟩ := List.mem_flatten.1 (by simpa using this)
          exact g.sub l hl x hxl
        refine ⟨⟨pl.lenP, fun u hu => ⟨?_, pl.le u hu⟩, M, hM, hlen, hsub⟩, fun hn => ⟨M, hM, ?_⟩⟩
        · rcases Nat.eq_zero_or_pos u with rfl | hp
          exacts [absurd hu h0, hp]
        · have nd : M.Nodup := by
            rw [List.nodup_iff_injective_get]
            intro i j hij
            have := pl.once (by simpa using hn) i j (M.get i) (by simp [hM]) (by simp [hM]; exact hij.symm)
            exact Fin.ext this
          refine ⟨nd, Finset.eq_of_subset_of_card_le (fun x hx => hsub x (List.mem_toFinset.1 hx)) ?_⟩
          rw [List.toFinset_card_of_nodup nd, hlen]

/-! ## The main loop -/

theorem good_of_layers (v : h.Valid) {S : Finset EId} {ls : List (Finset EId)} (sp : LayeredSpec h.Lt S ls) {y : List (List EId)}
    (hy : List.Forall₂ (fun p l => 2 ≤ p.length ∧ ∀ x ∈ p, x ∈ l) y ls) : Good h S y := by
  have key : ∀ p ∈ y, ∃ l ∈ ls, ∀ x ∈ p, x ∈ l := by
    clear sp
    induction hy with
    | nil => intro p hp; simp at hp
    | cons h1 _ ih =>
      intro p hp
      rcases List.mem_cons.1 hp with rfl | hp
      · exact ⟨_, by simp, h1.2⟩
      · obtain ⟨l, hl, hx⟩ := ih p hp
        exact ⟨l, by simp [hl], hx⟩
  refine ⟨fun p hp x hx => ?_, fun p hp a ha b hb => ?_, ?_⟩
  · obtain ⟨l, hl, hpl⟩ := key p hp
    exact (sp.cover x).2 ⟨l, hl, hpl x hx⟩
  · obtain ⟨l, hl, hpl⟩ := key p hp
    have := sp.antichain l hl a (hpl a ha) b (hpl b hb)
    unfold Heap.Lt at this
    simpa using this
  · have hlen := hy.length_eq
    rw [List.pairwise_iff_getElem]
    intro i j hi hj hij a ha b hb
    have hi' : i < ls.length := by omega
    have hj' : j < ls.length := by omega
    have h1 : a ∈ ls[i] := (List.forall₂_iff_get.1 hy).2 i hi hi' |>.2 a ha
    have h2 : b ∈ ls[j] := (List.forall₂_iff_get.1 hy).2 j hj hj' |>.2 b hb
    have a1 := (sp.height i a).1 (by rw [List.getD_eq_getElem?_getD, List.getElem?_eq_getElem hi']; exact h1)
    have b1 := (sp.height j b).1 (by rw [List.getD_eq_getElem?_getD, List.getElem?_eq_getElem hj']; exact h2)
    rw [isHeight_iff] at a1 b1
    constructor
    · rintro rfl; omega
    · by_contra hc
      have hlt : h.Lt b a := by unfold Heap.Lt; simpa using hc
      have := ht_lt v.order b1.1 hlt
      omega

theorem loop_result (it : Iter) (S : Finset EId) (mx : ℤ) (ending : Except Err Unit) : ∀ (ys : List (List (List EId))) (n : ℕ) (best : Option (List (Option EId) × List ℕ × ℕ))
    (L : List (Option EId)) (P : List ℕ), permutedOldLoop it h S mx ending ys n best = .ok (L, P) →
    (best = none ∧ L = [] ∧ P = [] ∧ ending = .ok () ∧ (ys.length + n : ℤ) ≤ max mx n ∧ ∀ y ∈ ys, permutedOldStep it h S y = .ok none) ∨
    ∃ d, (best = some (L, P, d) ∨ ∃ y ∈ ys.take (mx - n).toNat, permutedOldStep it h S y = .ok (some (L, P, d))) ∧
      (∀ y ∈ ys.take (mx - n).toNat, ∀ L' P' d', permutedOldStep it h S y = .ok (some (L', P', d')) → d ≤ d') ∧ ∀ L' P' d', best = some (L', P', d') → d ≤ d'
  | [], n, best, L, P, e => by
    unfold permutedOldLoop at e
    split at e
    · cases e
    · cases best with
      | none => cases e; exact .inl ⟨rfl, rfl, rfl, rfl, by simp, by simp⟩
      | some b =>
        obtain ⟨L0, P0, d0⟩ := b
        cases e
        exact .inr ⟨d0, .inl rfl, by simp, fun _ _ _ h => by cases h; exact le_rfl⟩
  | y :: ys, n, best, L, P, e => by
    unfold permutedOldLoop at e
    split at e
    · next hgt =>
      have h0 : (mx - n).toNat = 0 := by omega
      cases best with
      | none => cases e
      | some b =>
        obtain ⟨L0, P0, d0⟩ := b
        cases e
        exact .inr ⟨d0, .inl rfl, by simp [h0], fun _ _ _ h => by cases h; exact le_rfl⟩
    · next hle =>
      have h1 : (mx - n).toNat = (mx - (n + 1 : ℕ)).toNat + 1 := by push_cast; omega
      rw [h1, List.take_succ_cons]
      split at e
      · cases e
      · next hs =>
        rcases loop_result it S mx ending ys (n + 1) best L P e with ⟨a1, a2, a3, a4, a5, a6⟩ | ⟨d, b1, b2, b3⟩
        · refine .inl ⟨a1, a2, a3, a4, ?_, ?_⟩
          · simp only [List.length_cons]
            push_cast at a5 ⊢
            rcases max_cases mx (n + 1 : ℤ) with ⟨m1, m2⟩ | ⟨m1, m2⟩ <;> rcases max_cases mx (n : ℤ) with ⟨m3, m4⟩ | ⟨m3, m4⟩ <;> omega
          · intro z hz
            rcases List.mem_cons.1 hz with rfl | hz
            exacts [hs, a6 z hz]
        · refine .inr ⟨d, b1.imp id (fun ⟨z, hz, e⟩ => ⟨z, List.mem_cons_of_mem _ hz, e⟩), fun z hz L' P' d' hzs => ?_, b3⟩
          rcases List.mem_cons.1 hz with rfl | hz
          · rw [hs] at hzs; cases hzs
          · exact b2 z hz L' P' d' hzs
      · next L1 P1 d1 hs =>
        right
        -- the better of the two
        obtain ⟨L2, P2, d2, hb, hor, hle1, hle2⟩ : ∃ L2 P2 d2, betterOf best (L1, P1, d1) = (L2, P2, d2) ∧ (best = some (L2, P2, d2) ∨ (L2, P2, d2) = (L1, P1, d1)) ∧ d2 ≤ d1 ∧
            ∀ L' P' d', best = some (L', P', d') → d2 ≤ d' := by
          cases best with
          | none => exact ⟨L1, P1, d1, rfl, .inr rfl, le_rfl, fun _ _ _ h => by cases h⟩
          | some b =>
            obtain ⟨L0, P0, d0⟩ := b
            unfold betterOf
            dsimp only
            split
            · next hlt => exact ⟨L1, P1, d1, rfl, .inr rfl, le_rfl, fun _ _ _ h => by cases h; omega⟩
            · next hlt => exact ⟨L0, P0, d0, rfl, .inl rfl, by omega, fun _ _ _ h => by cases h; exact le_rfl⟩
        rw [hb] at e
        dsimp only at e
        have src : best = some (L2, P2, d2) ∨ ∃ z ∈ y :: ys.take (mx - (n + 1 : ℕ)).toNat, permutedOldStep it h S z = .ok (some (L2, P2, d2)) := by
          rcases hor with hor | hor
          · exact .inl hor
          · cases hor; exact .inr ⟨y, by simp, hs⟩
        split at e
        · next h0 =>
          cases e
          exact ⟨d2, src, fun z _ L' P' d' _ => by omega, hle2⟩
        · rcases loop_result it S mx ending ys (n + 1) (some (L2, P2, d2)) L P e with ⟨a1, -⟩ | ⟨d, b1, b2, b3⟩
          · cases a1
          · have hd := b3 L2 P2 d2 rfl
            refine ⟨d, ?_, fun z hz L' P' d' hzs => ?_, fun L' P' d' hb' => hd.trans (hle2 L' P' d' hb')⟩
            · rcases b1 with b1 | ⟨z, hz, ez⟩
              · cases b1; exact src
              · exact .inr ⟨z, List.mem_cons_of_mem _ hz, ez⟩
            · rcases List.mem_cons.1 hz with rfl | hz
              · rw [hs] at hzs; cases hzs; omega
              · exact b2 z hz L' P' d' hzs

theorem loop_error (it : Iter) (S : Finset EId) (mx : ℤ) (ending : Except Err Unit) : ∀ (ys : List (List (List EId))) (n : ℕ) (best : Option (List (Option EId) × List ℕ × ℕ))
    (x : Err), permutedOldLoop it h S mx ending ys n best = .error x →
    ending = .error x ∨ (x = .valueError ∧ mx < ys.length + n) ∨ ∃ y ∈ ys, permutedOldStep it h S y = .error x
  | [], n, best, x, e => by
    unfold permutedOldLoop at e
    split at e
    · cases e; exact .inl rfl
    · split at e <;> cases e
  | y :: ys, n, best, x, e => by
    have rec' : ∀ best', permutedOldLoop it h S mx ending ys (n + 1) best' = .error x →
        ending = .error x ∨ (x = .valueError ∧ mx < (y :: ys).length + n) ∨ ∃ z ∈ y :: ys, permutedOldStep it h S z = .error x := by
      intro best' e
      rcases loop_error it S mx ending ys (n + 1) best' x e with a | ⟨a, b⟩ | ⟨z, hz, ez⟩
      · exact .inl a
      · refine .inr (.inl ⟨a, ?_⟩)
        simp only [List.length_cons]
        push_cast at b ⊢
        omega
      · exact .inr (.inr ⟨z, List.mem_cons_of_mem _ hz, ez⟩)
    unfold permutedOldLoop at e
    split at e
    · next hgt =>
      split at e
      · cases e
        refine .inr (.inl ⟨rfl, ?_⟩)
        simp only [List.length_cons]
        push_cast
        omega
      · cases e
    · split at e
      · next hs => cases e; exact .inr (.inr ⟨y, by simp, hs⟩)
      · exact rec' best e
      · split at e
        · cases e
        · exact rec' _ e

end OldPerm

open OldPerm

/-! ## The theorems -/

/-- **C107, results.** For an order-convex set `S` of events (for example a whole causet) and any limit of iterations: if `permuted_old` returns, it returns two empty lists, or a list of as many
events of `S` as there are in `S` and as many numbers from 1 to the number of events.  Two empty lists are returned only if no combination of layer permutations gives a result and their number is within the limit. -/
theorem C107_results (it : Iter) {h : Heap} (v : h.Valid) (C : Finset EId) (depth fuel : ℕ) (S : Finset EId) (hS : OrdConvex h.Lt S) (mx : ℤ) (L : List (Option EId)) (P : List ℕ)
    (e : h.permutedOld it C depth fuel (some S) mx = .ok (L, P)) : (L = [] ∧ P = []) ∨ Coordinates S L P := by
  obtain ⟨ls, sp, hy⟩ := C106_contents it v C depth fuel S hS
  unfold permutedOld at e
  simp only [Option.getD_some] at e
  rcases loop_result it S mx _ _ 0 none L P e with ⟨-, a, b, -⟩ | ⟨d, (b1 | ⟨y, hy1, e1⟩), -⟩
  · exact .inl ⟨a, b⟩
  · cases b1
  · exact .inr ((step_spec it (good_of_layers v sp (hy y (List.mem_of_mem_take hy1)))).2 L P d e1).1

/-- **C107, choice.** What is returned (if it is not two empty lists) is the result for one of the first `maxIterations` combinations of layer permutations, and none of these combinations that has a result has a smaller number of
extended causal relations. -/
theorem C107_minimal (it : Iter) (h : Heap) (C : Finset EId) (depth fuel : ℕ) (S : Finset EId) (mx : ℤ) (L : List (Option EId)) (P : List ℕ)
    (e : h.permutedOld it C depth fuel (some S) mx = .ok (L, P)) :
    (L = [] ∧ P = [] ∧ ∀ y ∈ (h.layeredPermutations it C depth fuel (some S)).1, h.permutedOldStep it S y = .ok none) ∨
    ∃ d, (∃ y ∈ (h.layeredPermutations it C depth fuel (some S)).1.take mx.toNat, h.permutedOldStep it S y = .ok (some (L, P, d))) ∧
      ∀ y ∈ (h.layeredPermutations it C depth fuel (some S)).1.take mx.toNat, ∀ L' P' d', h.permutedOldStep it S y = .ok (some (L', P', d')) → d ≤ d' := by
  unfold permutedOld at e
  simp only [Option.getD_some] at e
  rcases loop_result it S mx _ _ 0 none L P e with ⟨-, a, b, -, -, c⟩ | ⟨d, (b1 | b1), b2, -⟩
  · exact .inl ⟨a, b, c⟩
  · cases b1
  · simp only [Nat.cast_zero, sub_zero] at b1 b2
    exact .inr ⟨d, b1, b2⟩

/-- **C107, exceptions.** For an order-convex set the only exceptions are those of `layeredPermutations`, ValueError if there are more combinations than `maxIterations`, and KeyError if a
combination leaves out an event; IndexError, which the comment in the code expects, does not occur. -/
theorem C107_exceptions (it : Iter) {h : Heap} (v : h.Valid) (C : Finset EId) (depth fuel : ℕ) (S : Finset EId) (hS : OrdConvex h.Lt S) (mx : ℤ) (x : Err)
    (e : h.permutedOld it C depth fuel (some S) mx = .error x) :
    (h.layeredPermutations it C depth fuel (some S)).2 = .error x ∨ (x = .valueError ∧ mx < (h.layeredPermutations it C depth fuel (some S)).1.length) ∨
    (x = .keyError ∧ ∃ y ∈ (h.layeredPermutations it C depth fuel (some S)).1, ∃ a ∈ S, a ∉ y.flatten) := by
  obtain ⟨ls, sp, hy⟩ := C106_contents it v C depth fuel S hS
  unfold permutedOld at e
  simp only [Option.getD_some] at e
  rcases loop_error it S mx _ _ 0 none x e with a | ⟨a, b⟩ | ⟨y, hy1, e1⟩
  · exact .inl a
  · exact .inr (.inl ⟨a, by simpa using b⟩)
  · obtain ⟨k1, k2⟩ := (step_spec it (good_of_layers v sp (hy y hy1))).1 x e1
    exact .inr (.inr ⟨k1, y, hy1, k2⟩)

/-- **C107, permutation, partial.** If no list of a layer contains an event twice, the returned events are a permutation of the set.  Missing: the lists can contain an event twice (`C107_refuted`). -/
theorem C107_permutation_partial (it : Iter) {h : Heap} (v : h.Valid) (C : Finset EId) (depth fuel : ℕ) (S : Finset EId) (hS : OrdConvex h.Lt S) (mx : ℤ) (L : List (Option EId)) (P : List ℕ)
    (hn : ∀ y ∈ (h.layeredPermutations it C depth fuel (some S)).1, ∀ p ∈ y, p.Nodup)
    (e : h.permutedOld it C depth fuel (some S) mx = .ok (L, P)) : (L = [] ∧ P = []) ∨ ∃ M : List EId, L = M.map some ∧ M.Nodup ∧ M.toFinset = S := by
  obtain ⟨ls, sp, hy⟩ := C106_contents it v C depth fuel S hS
  rcases C107_minimal it h C depth fuel S mx L P e with ⟨a, b, -⟩ | ⟨d, ⟨y, hy1, e1⟩, -⟩
  · exact .inl ⟨a, b⟩
  · have hm := List.mem_of_mem_take hy1
    have g := good_of_layers v sp (hy y hm)
    refine .inr (((step_spec it g).2 L P d e1).2 ?_)
    rw [List.nodup_flatten]
    refine ⟨hn y hm, g.pair.imp ?_⟩
    intro lo up hlu x hx hx'
    exact (hlu x hx x hx').1 rfl

/-- **C107, refuted.** For the seven events of `exDouble` the function returns the event 3 twice and the event 4 not at all (with the numbers 2, 6, 1, 4, 3, 7, 5). -/
theorem C107_refuted : LinkReachable exDouble ∧ OrdConvex exDouble.Lt {0, 1, 2, 3, 4, 5, 6} ∧
    exDouble.permutedOld Iter.asc {0, 1, 2, 3, 4, 5, 6} 5 10 none 100000 = .ok ([some 0, some 2, some 1, some 3, some 3, some 5, some 6], [2, 6, 1, 4, 3, 7, 5]) := by
  refine ⟨exDouble_reach, fun a _ b _ x h1 _ => ?_, by decide +kernel⟩
  have h2 : x < 7 := (exDouble_reach.valid.exists_of_lt _ _ h1).2
  simp only [Finset.mem_insert, Finset.mem_singleton]; omega

/-- **C107, refuted for sets with a least event.** For them RuntimeError is raised, whatever the limit. -/
theorem C107_least_refuted (it : Iter) {h : Heap} (v : h.Valid) (C : Finset EId) (depth fuel : ℕ) (S : Finset EId) (hS : OrdConvex h.Lt S) (e : EId) (he : e ∈ S)
    (hmin : ∀ x ∈ S, x ≠ e → h.Lt e x) (mx : ℤ) : h.permutedOld it C depth fuel (some S) mx = .error .runtimeError := by
  have := C80_layeredPermutations_refuted it v C depth S hS e he hmin
  unfold layeredPermFirst at this
  have h2 : h.layeredPermutations it C depth fuel (some S) = ([], .error .runtimeError) := by
    unfold layeredPermutations
    split at this
    · next hl => cases this; rw [hl]
    · next ls hl =>
      rw [hl]
      dsimp only
      split at this
      · next hi => cases this; rw [hi]
      · cases this
  unfold permutedOld
  simp [h2, permutedOldLoop]

/-- C107: for the N (0, 1 < 2 and 1 < 3) the result is a permutation of the events with numbers from which the order can be read off: `a < b` if `a` comes before `b` in the list and has the smaller number.  For
`exCrown33` nothing is found, and for the limit 0 ValueError is raised. -/
theorem C107_case : exN.permutedOld Iter.asc {0, 1, 2, 3} 5 10 (some {0, 1, 2, 3}) 100000 = .ok ([some 0, some 1, some 2, some 3], [3, 1, 4, 2]) ∧
    (∀ y ∈ (exN.layeredPermutations Iter.asc {0, 1, 2, 3} 5 10 (some {0, 1, 2, 3})).1, ∀ p ∈ y, p.Nodup) ∧
    exCrown33.permutedOld Iter.asc {0, 1, 2, 3, 4, 5} 5 10 none 100000 = .ok ([], []) ∧ exN.permutedOld Iter.asc {0, 1, 2, 3} 5 10 (some {0, 1, 2, 3}) 0 = .error .valueError := by
  refine ⟨by decide +kernel, by decide +kernel, by decide +kernel, by decide +kernel⟩

end Causets
