import Verif.Lemmas.Isolation
import Verif.Props.Program
import Verif.Model.EmbPermutation

/-! # C105 — programs that work on one part of the world do not affect the rest -/

namespace Causets

open Heap

open Function (update)

namespace Isolated

variable {U : Set EId} {h0 h g : Heap}

theorem newClosed (hU : ∀ x, h0.next ≤ x → x ∈ U) : NewClosed h0.next (Isolated U h0) := fun _ it l P q hP =>
  q.newEvent hU it l P [] (fun p hp => hU p (hP p hp).1) (by simp)

theorem nx : ∀ h, Isolated U h0 h → h0.next ≤ h.next := fun _ i => i.next

/-! ## `Causet.__init__` -/

theorem coneOf_mem (i : Isolated U h0 h) (it : Iter) {s : Finset EId} (hs : ∀ y ∈ s, y ∈ U) (p : Bool) : ∀ y ∈ h.coneOf it s p false, y ∈ U := by
  intro y hy
  unfold Heap.coneOf at hy
  have key : ∀ (F : EId → Finset EId) (k : List ℕ), (∀ x ∈ s, ∀ y ∈ F x, y ∈ U) → ∀ y ∈ (it.ord k s).foldl (fun acc e => acc ∪ F e) ∅, y ∈ U := by
    intro F k hF y hy
    rw [foldl_union_mem] at hy
    rcases hy with hy | ⟨x, hx, hy⟩
    · simp at hy
    · exact hF x ((it.mem _ _ _).1 hx) y hy
  cases p
  · rw [if_neg (by simp)] at hy
    exact key _ _ (fun x hx y hy => (Finset.mem_union.1 hy).elim ((i.inn x (hs x hx)).1 y) ((i.inn x (hs x hx)).2.1 y)) y hy
  · rw [if_neg (by simp)] at hy
    simp only [Bool.false_eq_true, if_false, if_true, Finset.mem_union] at hy
    rcases hy with hy | hy
    · exact key _ _ (fun x hx y hy => (Finset.mem_union.1 hy).elim ((i.inn x (hs x hx)).1 y) ((i.inn x (hs x hx)).2.1 y)) y hy
    · exact hs y hy

theorem initLoop_mem (i : Isolated U h0 h) (it : Iter) : ∀ (n : ℕ) (s C : Finset EId), (∀ y ∈ s, y ∈ U) → h.initLoop it n s = .ok C → ∀ y ∈ C, y ∈ U
  | 0, _, _, _, e => nomatch e
  | n + 1, s, C, hs, e => by
    unfold initLoop at e
    dsimp only at e
    split at e
    · cases e; exact i.coneOf_mem it hs true
    · exact initLoop_mem i it n _ C (i.coneOf_mem it hs true) e

theorem causetInit_mem (i : Isolated U h0 h) (it : Iter) {s C : Finset EId} (hs : ∀ y ∈ s, y ∈ U) (e : h.causetInit it s = .ok C) : ∀ y ∈ C, y ∈ U := i.initLoop_mem it _ s C hs e

/-! ## Matrices -/

theorem matrixLoop1 (C : BMat) (evs : List EId) (hev : ∀ e ∈ evs, e ∈ U) (h1 : C.cols ≤ evs.length) (h2 : C.rows ≤ evs.length) : ∀ (n j : ℕ) (h : Heap), Isolated U h0 h →
    j + n ≤ evs.length → Isolated U h0 (pastMatrixLoop1 C evs n j h).2
  | 0, _, _, i, _ => i
  | n + 1, j, h, i, hj => by
    unfold pastMatrixLoop1
    dsimp only
    split
    · exact i
    · refine matrixLoop1 C evs hev h1 h2 n (j + 1) _ ?_ (by omega)
      have he : evs.getD j 0 ∈ U := hev _ (getD_mem_list evs (by omega))
      refine (i.setPrec he _ ?_).setSucc he _ ?_
      · intro y hy
        obtain ⟨k, hk, rfl⟩ := List.mem_map.1 (List.mem_toFinset.1 hy)
        exact hev _ (getD_mem_list evs (lt_of_lt_of_le (List.mem_range.1 (List.mem_filter.1 hk).1) h1))
      · intro y hy
        obtain ⟨k, hk, rfl⟩ := List.mem_map.1 (List.mem_toFinset.1 hy)
        exact hev _ (getD_mem_list evs (lt_of_lt_of_le (List.mem_range.1 (List.mem_filter.1 hk).1) h2))

theorem pastOf_mem (i : Isolated U h0 h) (it : Iter) {s : Finset EId} (hs : ∀ y ∈ s, y ∈ U) (p : Bool) : ∀ y ∈ h.pastOf it s p false, y ∈ U := by
  intro y hy
  unfold Heap.pastOf at hy
  have key : ∀ (F : EId → Finset EId) (k : List ℕ), (∀ x ∈ s, ∀ y ∈ F x, y ∈ U) → ∀ y ∈ (it.ord k s).foldl (fun acc e => acc ∪ F e) ∅, y ∈ U := by
    intro F k hF y hy
    rw [foldl_union_mem] at hy
    rcases hy with hy | ⟨x, hx, hy⟩
    · simp at hy
    · exact hF x ((it.mem _ _ _).1 hx) y hy
  cases p
  · rw [if_neg (by simp)] at hy
    exact key _ _ (fun x hx y hy => (i.inn x (hs x hx)).1 y hy) y hy
  · rw [if_neg (by simp)] at hy
    simp only [Bool.false_eq_true, if_false, if_true, Finset.mem_union] at hy
    rcases hy with hy | hy
    · exact key _ _ (fun x hx y hy => (i.inn x (hs x hx)).1 y hy) y hy
    · exact hs y hy

theorem futureOf_mem (i : Isolated U h0 h) (it : Iter) {s : Finset EId} (hs : ∀ y ∈ s, y ∈ U) (p : Bool) : ∀ y ∈ h.futureOf it s p false, y ∈ U := by
  intro y hy
  unfold Heap.futureOf at hy
  have key : ∀ (F : EId → Finset EId) (k : List ℕ), (∀ x ∈ s, ∀ y ∈ F x, y ∈ U) → ∀ y ∈ (it.ord k s).foldl (fun acc e => acc ∪ F e) ∅, y ∈ U := by
    intro F k hF y hy
    rw [foldl_union_mem] at hy
    rcases hy with hy | ⟨x, hx, hy⟩
    · simp at hy
    · exact hF x ((it.mem _ _ _).1 hx) y hy
  cases p
  · rw [if_neg (by simp)] at hy
    exact key _ _ (fun x hx y hy => (i.inn x (hs x hx)).2.1 y hy) y hy
  · rw [if_neg (by simp)] at hy
    simp only [Bool.false_eq_true, if_false, if_true, Finset.mem_union] at hy
    rcases hy with hy | hy
    · exact key _ _ (fun x hx y hy => (i.inn x (hs x hx)).2.1 y hy) y hy
    · exact hs y hy

theorem matrixLoop2 (it : Iter) : ∀ (evs : List EId) (h : Heap), (∀ e ∈ evs, e ∈ U) → Isolated U h0 h → Isolated U h0 (pastMatrixLoop2 it evs h)
  | [], _, _, i => i
  | e :: es, h, hev, i => by
    have he := hev e (by simp)
    have i1 := i.setPrec he (h.pastOf it (h.prec e) true false) (i.pastOf_mem it (i.inn e he).1 true)
    have i2 := i1.setSucc he _ (i1.futureOf_mem it (i1.inn e he).2.1 true)
    exact matrixLoop2 it es _ (fun x hx => hev x (by simp [hx])) i2

theorem fromPastMatrix (hU : ∀ x, h0.next ≤ x → x ∈ U) (i : Isolated U h0 h) (it : Iter) (C : BMat) :
    Isolated U h0 (Causets.fromPastMatrix it C h).2 ∧ ∀ x, (Causets.fromPastMatrix it C h).1 = .ok x → ∀ e ∈ x, e ∈ U := by
  unfold Causets.fromPastMatrix
  split_ifs with hc
  · exact ⟨i, fun x e => nomatch e⟩
  · obtain ⟨q, hl, hin, -⟩ := (newClosed hU).newEvents nx it ((List.range C.cols).map (fun (i : ℕ) => (some (.int ((i : ℤ) + 1)), []))) h i (by
      intro p hp x hx
      obtain ⟨k, -, rfl⟩ := List.mem_map.1 hp
      simp at hx)
    dsimp only
    generalize Causets.newEvents it ((List.range C.cols).map (fun (i : ℕ) => (some (.int ((i : ℤ) + 1)), []))) h = r at q hl hin ⊢
    have hev : ∀ e ∈ r.1, e ∈ U := fun e he => hU e (hin e he).1
    simp only [List.length_map, List.length_range] at hl
    have l1 := matrixLoop1 C r.1 hev (by omega) (by omega) C.rows 0 r.2 q (by omega)
    split
    · next heq => rw [heq] at l1; exact ⟨l1, fun x e => nomatch e⟩
    · next heq =>
      rw [heq] at l1
      have l2 := matrixLoop2 it r.1 _ hev l1
      exact ⟨l2, fun x e => l2.causetInit_mem it (fun y hy => hev y (List.mem_toFinset.1 hy)) e⟩

theorem constructor (hU : ∀ x, h0.next ≤ x → x ∈ U) {r : Except Err (Finset EId)} {g : Heap} {it : Iter}
    (q : Isolated U h0 g ∧ ∀ x, r = .ok x → ∃ S : Finset EId, (∀ e ∈ S, g.In h0.next e) ∧ g.causetInit it S = .ok x) :
    Isolated U h0 g ∧ ∀ x, r = .ok x → ∀ e ∈ x, e ∈ U :=
  ⟨q.1, fun x e => by
    obtain ⟨S, hS, e2⟩ := q.2 x e
    exact q.1.causetInit_mem it (fun y hy => hU y (hS y hy).1) e2⟩

theorem fromTextFile (hU : ∀ x, h0.next ≤ x → x ∈ U) (i : Isolated U h0 h) (it : Iter) (rd : ReadInt) (text : List Char) (p : Bool) (d : Char) :
    Isolated U h0 (Causets.fromTextFile it rd text p d h).2 ∧ ∀ x, (Causets.fromTextFile it rd text p d h).1 = .ok x → ∀ e ∈ x, e ∈ U := by
  unfold Causets.fromTextFile
  split
  · exact ⟨i, fun x e => nomatch e⟩
  · exact ⟨i, fun x e => nomatch e⟩
  · split
    · exact fromPastMatrix hU i it _
    · exact fromPastMatrix hU i it _

/-! ## Methods of causets -/

theorem mergeInner {p : EId} (hp : p ∈ U) : ∀ (L : List EId) (h : Heap), (∀ f ∈ L, f ∈ U) → Isolated U h0 h → Isolated U h0 (Causets.mergeInner p L h)
  | [], _, _, i => i
  | f :: L, _, hL, i => mergeInner hp L _ (fun x hx => hL x (by simp [hx])) ((i.addToFuture hp (hL f (by simp))).addToPast (hL f (by simp)) hp)

theorem mergeLoop (it : Iter) {F : Finset EId} (hF : ∀ f ∈ F, f ∈ U) : ∀ (L : List EId) (h : Heap), (∀ p ∈ L, p ∈ U) → Isolated U h0 h → Isolated U h0 (Causets.mergeLoop it F L h)
  | [], _, _, i => i
  | p :: L, _, hL, i => mergeLoop it hF L _ (fun x hx => hL x (by simp [hx])) (mergeInner (hL p (by simp)) _ _ (fun f hf => hF f ((it.mem _ _ _).1 hf)) i)

theorem merge (i : Isolated U h0 h) (it : Iter) {P F : Finset EId} (hP : ∀ p ∈ P, p ∈ U) (hF : ∀ f ∈ F, f ∈ U) (d : Bool) :
    Isolated U h0 (Causets.merge it P F d h).2 ∧ ∀ x, (Causets.merge it P F d h).1 = .ok x → ∀ e ∈ x, e ∈ U := by
  unfold Causets.merge
  have i1 : Isolated U h0 (if d then h else Causets.mergeLoop it F (it.ord [237] P) h) := by
    split
    · exact i
    · exact mergeLoop it hF _ _ (fun p hp => hP p ((it.mem _ _ _).1 hp)) i
  exact ⟨i1, fun x e => i1.causetInit_mem it (fun y hy => (Finset.mem_union.1 hy).elim (hP y) (hF y)) e⟩

theorem unlinkAll : ∀ (L : List EId) (h : Heap), (∀ x ∈ L, x ∈ U) → Isolated U h0 h → Isolated U h0 (Causets.unlinkAll L h).2
  | [], _, _, i => i
  | e :: L, h, hL, i => by
    have iu := i.unlink (hL e (by simp))
    unfold Causets.unlinkAll
    split
    · next heq => rw [heq] at iu; exact iu
    · next heq => rw [heq] at iu; exact unlinkAll L _ (fun x hx => hL x (by simp [hx])) iu

theorem unlinkLinked : ∀ (L : List EId) (h : Heap), (∀ x ∈ L, x ∈ U) → Isolated U h0 h → Isolated U h0 (Causets.unlinkLinked L h).2
  | [], _, _, i => i
  | e :: L, h, hL, i => by
    have iu := i.unlink (hL e (by simp))
    unfold Causets.unlinkLinked
    split
    · split
      · next heq => rw [heq] at iu; exact iu
      · next heq => rw [heq] at iu; exact unlinkLinked L _ (fun x hx => hL x (by simp [hx])) iu
    · exact unlinkLinked L _ (fun x hx => hL x (by simp [hx])) i

theorem causetAdd (i : Isolated U h0 h) (it : Iter) {C s : Finset EId} (hC : ∀ x ∈ C, x ∈ U) (hs : ∀ x ∈ s, x ∈ U) (u : Bool) :
    Isolated U h0 (Causets.causetAdd it C s u h).2.2 ∧ ∀ x ∈ (Causets.causetAdd it C s u h).1, x ∈ U := by
  have hCs : ∀ x ∈ C ∪ s, x ∈ U := fun x hx => (Finset.mem_union.1 hx).elim (hC x) (hs x)
  refine ⟨?_, hCs⟩
  unfold Causets.causetAdd
  dsimp only
  split
  · exact unlinkAll _ _ (fun x hx => hCs x ((it.mem _ _ _).1 hx)) i
  · exact i

theorem causetDiscard (i : Isolated U h0 h) (it : Iter) {C : Finset EId} (hC : ∀ x ∈ C, x ∈ U) (s : Finset EId) (u : Bool) :
    Isolated U h0 (Causets.causetDiscard it C s u h).2.2 ∧ ∀ x ∈ (Causets.causetDiscard it C s u h).1, x ∈ U := by
  have hCs : ∀ x ∈ C \ s, x ∈ U := fun x hx => hC x (Finset.mem_sdiff.1 hx).1
  refine ⟨?_, hCs⟩
  unfold Causets.causetDiscard
  dsimp only
  split
  · exact unlinkAll _ _ (fun x hx => hCs x ((it.mem _ _ _).1 hx)) i
  · exact i

theorem linkClear : ∀ (L : List EId) (h : Heap), (∀ x ∈ L, x ∈ U) → Isolated U h0 h → Isolated U h0 (Causets.linkClear L h)
  | [], _, _, i => i
  | e :: L, _, hL, i => linkClear L _ (fun x hx => hL x (by simp [hx])) (i.setLsucc (hL e (by simp)) ∅ (by simp))

theorem linkAddSucc {b : EId} (hb : b ∈ U) : ∀ (L : List EId) (h : Heap), (∀ x ∈ L, x ∈ U) → Isolated U h0 h → Isolated U h0 (Causets.linkAddSucc b L h).2
  | [], _, _, i => i
  | a :: L, h, hL, i => by
    unfold Causets.linkAddSucc
    split
    · exact i
    · next t ht =>
      have ha := hL a (by simp)
      refine linkAddSucc hb L _ (fun x hx => hL x (by simp [hx])) (i.setLsucc ha _ ?_)
      intro y hy
      rcases Finset.mem_insert.1 hy with rfl | hy
      exacts [hb, (i.inn a ha).2.2.2 t ht y hy]

theorem linkCompute (it : Iter) : ∀ (L : List EId) (h : Heap), (∀ x ∈ L, x ∈ U) → Isolated U h0 h → Isolated U h0 (Causets.linkCompute it L h).2
  | [], _, _, i => i
  | b :: L, h, hL, i => by
    have hb := hL b (by simp)
    have i1 := i.setLprec hb (h.pastLinks b) (i.pastLinks_mem hb)
    have i2 := linkAddSucc hb (it.ord [b, 291] (h.pastLinks b)) _ (fun x hx => i.pastLinks_mem hb x ((it.mem _ _ _).1 hx)) i1
    unfold Causets.linkCompute
    dsimp only
    split
    · next heq => rw [heq] at i2; exact i2
    · next heq => rw [heq] at i2; exact linkCompute it L _ (fun x hx => hL x (by simp [hx])) i2

theorem causetLink (i : Isolated U h0 h) (it : Iter) {C : Finset EId} (hC : ∀ x ∈ C, x ∈ U) : Isolated U h0 (Causets.causetLink it C h).2 :=
  linkCompute it _ _ (fun x hx => hC x ((it.mem _ _ _).1 hx)) (linkClear _ _ (fun x hx => hC x ((it.mem _ _ _).1 hx)) i)

theorem causetUnlink (i : Isolated U h0 h) (it : Iter) {C : Finset EId} (hC : ∀ x ∈ C, x ∈ U) : Isolated U h0 (Causets.causetUnlink it C h).2 :=
  unlinkLinked _ _ (fun x hx => hC x ((it.mem _ _ _).1 hx)) i

/-! ## Embedded causets -/

theorem relateClear : ∀ (L : List EId) (h : Heap), (∀ x ∈ L, x ∈ U) → Isolated U h0 h → Isolated U h0 (Heap.relateClear L h)
  | [], _, _, i => i
  | e :: L, _, hL, i => relateClear L _ (fun x hx => hL x (by simp [hx])) ((i.setPrec (hL e (by simp)) ∅ (by simp)).setSucc (hL e (by simp)) ∅ (by simp))

theorem ordered (i : Isolated U h0 h) {a b : EId} (ha : a ∈ U) (hb : b ∈ U) :
    Isolated U h0 { h with succ := update h.succ a (insert b (h.succ a)), prec := update h.prec b (insert a (h.prec b)) } := by
  have i1 := i.setSucc ha (insert b (h.succ a)) (fun y hy => (Finset.mem_insert.1 hy).elim (fun e => e ▸ hb) ((i.inn a ha).2.1 y))
  exact i1.setPrec hb (insert a (h.prec b)) (fun y hy => (Finset.mem_insert.1 hy).elim (fun e => e ▸ ha) ((i.inn b hb).1 y))

theorem relatePair (i : Isolated U h0 h) {a b : EId} (ha : a ∈ U) (hb : b ∈ U) (r : Bool × Bool) : Isolated U h0 (h.relatePair r a b) := by
  have i1 : Isolated U h0 (if r.1 then
    { h with succ := update h.succ a (insert b (h.succ a)), prec := update h.prec b (insert a (h.prec b)) } else h) := by
    split
    exacts [i.ordered ha hb, i]
  unfold Heap.relatePair
  dsimp only
  split
  · exact i1.ordered hb ha
  · exact i1

variable {α : Type} (c : α → α → Bool × Bool)

theorem relateRow (crd : EId → Option α) {a : EId} (ha : a ∈ U) : ∀ (L : List EId) (h : Heap), (∀ x ∈ L, x ∈ U) → Isolated U h0 h → Isolated U h0 (Causets.relateRow c crd a L h).2
  | [], _, _, i => i
  | b :: L, h, hL, i => by
    unfold Causets.relateRow
    split
    · exact relateRow crd ha L _ (fun x hx => hL x (by simp [hx])) (i.relatePair ha (hL b (by simp)) _)
    · exact i

theorem relateRows (crd : EId → Option α) : ∀ (L : List EId) (h : Heap), (∀ x ∈ L, x ∈ U) → Isolated U h0 h → Isolated U h0 (Causets.relateRows c crd L h).2
  | [], _, _, i => i
  | a :: L, h, hL, i => by
    have i1 := relateRow c crd (hL a (by simp)) L h (fun x hx => hL x (by simp [hx])) i
    unfold Causets.relateRows
    split
    · next heq => rw [heq] at i1; exact i1
    · next heq => rw [heq] at i1; exact relateRows crd L _ (fun x hx => hL x (by simp [hx])) i1

theorem relate (it : Iter) {C : Finset EId} (hC : ∀ x ∈ C, x ∈ U) (link : Bool) (w : World α) (i : Isolated U h0 w.heap) :
    Isolated U h0 (Causets.relate c it C link w).2.heap ∧ (Causets.relate c it C link w).2.crd = w.crd := by
  have hL : ∀ k, ∀ x ∈ it.ord k C, x ∈ U := fun k x hx => hC x ((it.mem _ _ _).1 hx)
  have i1 := relateRows c w.crd (it.ord [221] C) _ (hL _) (relateClear (it.ord [218] C) w.heap (hL _) i)
  unfold Causets.relate
  split
  · next heq => rw [heq] at i1; exact ⟨i1, rfl⟩
  · next heq =>
    rw [heq] at i1
    refine ⟨?_, rfl⟩
    dsimp only
    split
    · exact i1.causetLink it hC
    · exact i1.causetUnlink it hC

theorem createEvents (hU : ∀ x, h0.next ≤ x → x ∈ U) (it : Iter) (fmt : Option (ℕ → String)) : ∀ (xs : List α) (n : ℕ) (w : World α), Isolated U h0 w.heap →
    Isolated U h0 (Causets.createEvents it fmt n xs w).2.heap ∧ (∀ x ∈ (Causets.createEvents it fmt n xs w).1, x ∈ U) ∧ ∀ x, x ∉ U → (Causets.createEvents it fmt n xs w).2.crd x = w.crd x
  | [], _, _, i => ⟨i, by simp [Causets.createEvents], fun _ _ => rfl⟩
  | y :: xs, n, w, i => by
    have hn : ∀ l, (w.heap.newEvent it l [] []).1 ∈ U := fun l => by rw [newEvent_fst]; exact hU _ i.next
    have i1 := fun l => i.newEvent hU it l [] [] (by simp) (by simp)
    unfold Causets.createEvents
    dsimp only
    obtain ⟨a, b, d⟩ := createEvents hU it fmt xs (n + 1) ⟨(w.heap.newEvent it _ [] []).2, update w.crd (w.heap.newEvent it _ [] []).1 (some y)⟩ (i1 (some (match fmt with
      | none => .int n
      | some f => .str (f n))))
    refine ⟨a, fun x hx => ?_, fun x hx => ?_⟩
    · rcases List.mem_cons.1 hx with rfl | hx
      exacts [hn _, b x hx]
    · exact (d x hx).trans (Function.update_of_ne (fun e => hx (by rw [e]; exact hn _)) _ _)

theorem create (hU : ∀ x, h0.next ≤ x → x ∈ U) (it : Iter) {C : Finset EId} (hC : ∀ x ∈ C, x ∈ U) (coords : List α) (fmt : Option (ℕ → String)) (doRelate : Bool)
    (w : World α) (i : Isolated U h0 w.heap) :
    Isolated U h0 (Causets.create c it C coords fmt doRelate w).2.2.2.heap ∧ (∀ x ∈ (Causets.create c it C coords fmt doRelate w).1, x ∈ U) ∧
      (∀ x ∈ (Causets.create c it C coords fmt doRelate w).2.1, x ∈ U) ∧ ∀ x, x ∉ U → (Causets.create c it C coords fmt doRelate w).2.2.2.crd x = w.crd x := by
  obtain ⟨a, b, d⟩ := createEvents hU it fmt coords (C.card + 1) w i
  have hC' : ∀ x ∈ C ∪ (Causets.createEvents it fmt (C.card + 1) coords w).1.toFinset, x ∈ U := fun x hx =>
    (Finset.mem_union.1 hx).elim (hC x) (fun h => b x (List.mem_toFinset.1 h))
  unfold Causets.create
  dsimp only
  split
  · obtain ⟨r1, r2⟩ := relate c it hC' true _ a
    exact ⟨r1, hC', fun x hx => b x (List.mem_toFinset.1 hx), fun x hx => by dsimp only; rw [r2]; exact d x hx⟩
  · exact ⟨a, hC', fun x hx => b x (List.mem_toFinset.1 hx), d⟩

theorem relabelLoop (L : List EId) (hL : ∀ x ∈ L, x ∈ U) : ∀ (idx : List ℕ) (k : ℕ) (h : Heap), (∀ j ∈ idx, j < L.length) → Isolated U h0 h → Isolated U h0 (Causets.relabelLoop L k idx h)
  | [], _, _, _, i => i
  | j :: idx, k, _, hj, i => relabelLoop L hL idx (k + 1) _ (fun x hx => hj x (by simp [hx])) (i.setLabel (hL _ (getD_mem_list L (hj j (by simp)))) _)

theorem relabel {β : Type} (i : Isolated U h0 h) (it : Iter) {C : Finset EId} (hC : ∀ x ∈ C, x ∈ U) (key : EId → β) (argsort : List β → List ℕ)
    (ha : ∀ l, ∀ j ∈ argsort l, j < l.length) (d : Bool) : Isolated U h0 (Causets.relabel it C key argsort d h) := by
  unfold Causets.relabel
  refine relabelLoop _ (fun x hx => hC x ((it.mem _ _ _).1 hx)) _ _ _ ?_ i
  intro j hj
  have : j ∈ argsort ((it.ord [245] C).map key) := by
    split at hj
    exacts [List.mem_reverse.1 hj, hj]
  simpa using ha _ j this

end Isolated

/-! ## Questions -/

theorem swapStep_sub {h : Heap} {l : List EId} {n i j : ℕ} (hl : l.length = n) (hi : i < n) (hj : j < n) :
    (h.swapStep i l j).length = n ∧ ∀ x ∈ h.swapStep i l j, x ∈ l := by
  unfold swapStep
  split
  · refine ⟨by simp [hl], fun x hx => ?_⟩
    rcases List.mem_or_eq_of_mem_set hx with hx | rfl
    · rcases List.mem_or_eq_of_mem_set hx with hx | rfl
      · exact hx
      · exact getD_mem_list l (by omega)
    · exact getD_mem_list l (by omega)
  · exact ⟨hl, fun x hx => hx⟩

theorem foldl_sub {β : Type} {F : List EId → β → List EId} {n : ℕ} : ∀ (L : List β) (l : List EId), (∀ j ∈ L, ∀ l : List EId, l.length = n → (F l j).length = n ∧ ∀ x ∈ F l j, x ∈ l) →
    l.length = n → (L.foldl F l).length = n ∧ ∀ x ∈ L.foldl F l, x ∈ l
  | [], _, _, hl => ⟨hl, fun _ hx => hx⟩
  | j :: L, l, hF, hl => by
    obtain ⟨a, b⟩ := hF j (by simp) l hl
    obtain ⟨c, d⟩ := foldl_sub L (F l j) (fun k hk => hF k (by simp [hk])) a
    exact ⟨c, fun x hx => b x (d x hx)⟩

/-- `sortedByCausality` lists events of the causet only, in every state -/
theorem sortedByCausality_mem {h : Heap} {it : Iter} {as : ArgSort} {C : Finset EId} {r : Bool} {l : List EId} (hl : h.sortedByCausality it as C none r = .ok l) {x : EId}
    (hx : x ∈ l) : x ∈ C := by
  unfold sortedByCausality at hl
  split at hl
  · cases hl
  · next l1 h1 =>
    have h2 := (sortedByLabels_lists it as C C true l1 h1).2
    have h3 : ∀ y ∈ h.exchangeSort l1, y ∈ l1 := by
      unfold exchangeSort
      refine (foldl_sub (n := l1.length) _ _ (fun i hi l hl => ?_) rfl).2
      refine foldl_sub _ _ (fun j hj l hl => ?_) hl
      have := List.mem_range.1 hi
      exact swapStep_sub hl this (lt_trans (List.mem_range.1 hj) this)
    cases hl
    refine (h2 x).1 (h3 x ?_)
    split at hx
    exacts [List.mem_reverse.1 hx, hx]

/-- started with only events of `U` changed, the call changes only events of `U`, and its result has the property `Q` -/
def Local (U : Set EId) (h0 : Heap) {β : Type} (m : StateM Heap β) (Q : β → Prop) : Prop :=
  ∀ h : Heap, Isolated U h0 h → Isolated U h0 (m.run h).2 ∧ Q (m.run h).1

namespace Local

variable {U : Set EId} {h0 : Heap} {β γ : Type}

/-- all elements of a set are in `U` -/
abbrev SetIn (U : Set EId) (s : Finset EId) : Prop := ∀ x ∈ s, x ∈ U

theorem pure' {x : β} {Q : β → Prop} (hx : Q x) : Local U h0 (pure x : StateM Heap β) Q := fun _ i => ⟨i, hx⟩

theorem get' : Local U h0 (get : StateM Heap Heap) (Isolated U h0) := fun _ i => ⟨i, i⟩

theorem bind' {m : StateM Heap β} {f : β → StateM Heap γ} {Q : β → Prop} {R : γ → Prop} (hm : Local U h0 m Q) (hf : ∀ x, Q x → Local U h0 (f x) R) : Local U h0 (m >>= f) R := by
  intro h i
  obtain ⟨a, b⟩ := hm h i
  exact hf (m.run h).1 b (m.run h).2 a

theorem ite' {p : Prop} [Decidable p] {m m' : StateM Heap β} {Q : β → Prop} (h1 : Local U h0 m Q) (h2 : Local U h0 m' Q) : Local U h0 (if p then m else m') Q := by
  split <;> assumption

theorem mono {m : StateM Heap β} {Q R : β → Prop} (hm : Local U h0 m Q) (hq : ∀ x, Q x → R x) : Local U h0 m R := fun h i => ⟨(hm h i).1, hq _ (hm h i).2⟩

theorem mapM' {f : γ → StateM Heap β} : ∀ (l : List γ), (∀ x ∈ l, Local U h0 (f x) (fun _ => True)) → Local U h0 (l.mapM f) (fun _ => True)
  | [], _ => pure' trivial
  | a :: l, hf => by
    rw [List.mapM_cons]
    exact bind' (hf a (by simp)) fun _ _ => bind' (mapM' l (fun x hx => hf x (by simp [hx]))) fun _ _ => pure' trivial

theorem linkPast {e : EId} (he : e ∈ U) : Local U h0 (linkPast e) (SetIn U) := fun h i => by
  show Isolated U h0 ((Causets.linkPast e) h).2 ∧ SetIn U ((Causets.linkPast e) h).1
  unfold Causets.linkPast
  split
  · next s hs => exact ⟨i, (i.inn e he).2.2.1 s hs⟩
  · exact ⟨i.link he, i.pastLinks_mem he⟩

theorem linkFuture {e : EId} (he : e ∈ U) : Local U h0 (linkFuture e) (SetIn U) := fun h i => by
  show Isolated U h0 ((Causets.linkFuture e) h).2 ∧ SetIn U ((Causets.linkFuture e) h).1
  unfold Causets.linkFuture
  split
  · next s hs => exact ⟨i, (i.inn e he).2.2.2 s hs⟩
  · exact ⟨i.link he, i.futureLinks_mem he⟩

theorem linkCone {e : EId} (he : e ∈ U) : Local U h0 (linkCone e) (SetIn U) := fun h i => by
  show Isolated U h0 ((Causets.linkCone e) h).2 ∧ SetIn U ((Causets.linkCone e) h).1
  unfold Causets.linkCone
  split
  · next s t hs ht => exact ⟨i, fun x hx => (Finset.mem_union.1 hx).elim ((i.inn e he).2.2.1 s hs x) ((i.inn e he).2.2.2 t ht x)⟩
  · exact ⟨i.link he, fun x hx => (Finset.mem_union.1 hx).elim (i.pastLinks_mem he x) (i.futureLinks_mem he x)⟩

theorem isPastLink {a : EId} (ha : a ∈ U) (b : EId) : Local U h0 (isPastLink a b) (fun _ => True) := fun h i => by
  show Isolated U h0 ((Causets.isPastLink a b) h).2 ∧ True
  unfold Causets.isPastLink
  split
  exacts [⟨i, trivial⟩, ⟨i.link ha, trivial⟩]

theorem isFutureLink {a : EId} (ha : a ∈ U) (b : EId) : Local U h0 (isFutureLink a b) (fun _ => True) := fun h i => by
  show Isolated U h0 ((Causets.isFutureLink a b) h).2 ∧ True
  unfold Causets.isFutureLink
  split
  exacts [⟨i, trivial⟩, ⟨i.link ha, trivial⟩]

theorem isLinkedTo {a : EId} (ha : a ∈ U) (b : EId) : Local U h0 (isLinkedTo a b) (fun _ => True) :=
  bind' (isPastLink ha b) fun _ _ => ite' (pure' trivial) (isFutureLink ha b)

theorem linkPastCard {e : EId} (he : e ∈ U) : Local U h0 (linkPastCard e) (fun _ => True) := bind' (linkPast he) fun _ _ => pure' trivial
theorem linkFutureCard {e : EId} (he : e ∈ U) : Local U h0 (linkFutureCard e) (fun _ => True) := bind' (linkFuture he) fun _ _ => pure' trivial
theorem linkConeCard {e : EId} (he : e ∈ U) : Local U h0 (linkConeCard e) (fun _ => True) := fun h i => by
  show Isolated U h0 ((Causets.linkConeCard e) h).2 ∧ True
  unfold Causets.linkConeCard
  split
  exacts [⟨i, trivial⟩, ⟨i.link he, trivial⟩]

theorem linkCountOf (it : Iter) {s : Finset EId} (hs : SetIn U s) : Local U h0 (linkCountOf it s) (fun _ => True) :=
  bind' (mapM' _ (fun e he => bind' (linkPast (hs e ((it.mem _ _ _).1 he))) fun _ _ => pure' trivial)) fun _ _ => pure' trivial

theorem rankLoop {rk : EId → EId → StateM Heap (Except Err ℕ∞)} (hrk : ∀ a ∈ U, ∀ b ∈ U, Local U h0 (rk a b) (fun _ => True)) :
    ∀ (l : List (EId × EId)) (r : ℕ∞), (∀ p ∈ l, p.1 ∈ U ∧ p.2 ∈ U) → Local U h0 (rankLoop rk l r) (fun _ => True)
  | [], _, _ => pure' trivial
  | (x, y) :: t, r, hl => bind' (hrk x (hl (x, y) (by simp)).1 y (hl (x, y) (by simp)).2) fun v _ => by
    cases v with
    | error e => exact pure' trivial
    | ok v => exact ite' (pure' trivial) (rankLoop hrk t _ (fun p hp => hl p (by simp [hp])))

theorem rank (it : Iter) : ∀ (fuel : ℕ) (ctx : List ℕ) (a b : EId), a ∈ U → b ∈ U → Local U h0 (rank it fuel ctx a b) (fun _ => True)
  | 0, _, _, _, _, _ => pure' trivial
  | fuel + 1, ctx, a, b, ha, hb => bind' get' fun h _ => ite' (pure' trivial) (ite' (pure' trivial) (bind' (isFutureLink ha b) fun _ _ => ite' (pure' trivial)
      (bind' (linkFuture ha) fun al hal => bind' (linkPast hb) fun bl hbl => ite' (pure' trivial)
        (rankLoop (fun x hx y hy => rank it fuel (x :: y :: ctx) x y hx hy) _ _ (fun p hp => by
          obtain ⟨h1, h2⟩ := List.mem_product.1 hp
          exact ⟨hal _ ((it.mem _ _ _).1 h1), hbl _ ((it.mem _ _ _).1 h2)⟩)))))

theorem linkCount (it : Iter) {C : Finset EId} (hC : SetIn U C) : ∀ o, (∀ s, o = some s → SetIn U s) → Local U h0 (linkCount it C o) (fun _ => True)
  | none, _ => bind' (mapM' _ (fun e he => linkPastCard (hC e ((it.mem _ _ _).1 he)))) fun _ _ => pure' trivial
  | some s, hs => bind' (mapM' _ (fun e he => bind' (linkPast (hs s rfl e ((it.mem _ _ _).1 he))) fun _ _ => pure' trivial)) fun _ _ => pure' trivial

theorem linkPastMatrixOf {l : List EId} (hl : ∀ x ∈ l, x ∈ U) : Local U h0 (linkPastMatrixOf l) (fun _ => True) :=
  mapM' l (fun a ha => mapM' l (fun b _ => isPastLink (hl a ha) b))

theorem linkPastMatrix (it : Iter) (as : ArgSort) {C : Finset EId} (hC : SetIn U C) : ∀ o, (∀ l, o = some l → ∀ x ∈ l, x ∈ U) → Local U h0 (linkPastMatrix it as C o) (fun _ => True)
  | some l, hl => bind' (linkPastMatrixOf (hl l rfl)) fun _ _ => pure' trivial
  | none, _ => bind' get' fun h _ => by
    split
    · exact pure' trivial
    · next l hl =>
      refine bind' (linkPastMatrixOf (l := l) ?_) fun _ _ => pure' trivial
      intro x hx
      exact hC x (sortedByCausality_mem hl hx)

theorem linkFutureMatrix (it : Iter) (as : ArgSort) {C : Finset EId} (hC : SetIn U C) (o) (ho : ∀ l, o = some l → ∀ x ∈ l, x ∈ U) :
    Local U h0 (linkFutureMatrix it as C o) (fun _ => True) :=
  bind' (linkPastMatrix it as hC o ho) fun r _ => by cases r <;> exact pure' trivial

theorem isPathLoop (s : Finset EId) : ∀ (l : List EId) (n : ℕ), (∀ x ∈ l, x ∈ U) → Local U h0 (isPathLoop s l n) (fun _ => True)
  | [], _, _ => pure' trivial
  | e :: es, n, hl => bind' (linkCone (hl e (by simp))) fun _ _ => ite' (pure' trivial) (ite' (ite' (pure' trivial) (isPathLoop s es _ (fun x hx => hl x (by simp [hx]))))
      (isPathLoop s es _ (fun x hx => hl x (by simp [hx]))))

theorem isPath (it : Iter) (C : Finset EId) : ∀ o, (∀ s, o = some s → SetIn U s) → Local U h0 (isPath it C o) (fun _ => True)
  | none, _ => ite' (pure' trivial) (bind' get' fun _ _ => pure' trivial)
  | some s, hs => ite' (pure' trivial) (isPathLoop s _ _ (fun x hx => hs s rfl x ((it.mem _ _ _).1 hx)))

theorem perimetralEvents {a b : EId} (ha : a ∈ U) (hb : b ∈ U) : Local U h0 (perimetralEvents a b) (SetIn U) :=
  bind' get' fun _ _ => ite' (pure' (by simp [SetIn])) (bind' (linkFuture ha) fun _ hx => bind' (linkPast hb) fun _ _ => pure' (fun y hy => hx y (Finset.mem_inter.1 hy).1))
theorem perimetralEventCount {a b : EId} (ha : a ∈ U) (hb : b ∈ U) : Local U h0 (perimetralEventCount a b) (fun _ => True) :=
  bind' get' fun _ _ => ite' (pure' trivial) (bind' (linkFuture ha) fun _ _ => bind' (linkPast hb) fun _ _ => pure' trivial)
theorem internalEvents {a b : EId} (ha : a ∈ U) (hb : b ∈ U) : Local U h0 (internalEvents a b) (SetIn U) :=
  bind' get' fun _ _ => ite' (pure' (by simp [SetIn])) (bind' get' fun h i => bind' get' fun _ _ => bind' (perimetralEvents ha hb) fun _ _ =>
    pure' (fun y hy => (i.inn a ha).2.1 y (Finset.mem_inter.1 (Finset.mem_sdiff.1 hy).1).1))
theorem internalEventCount {a b : EId} (ha : a ∈ U) (hb : b ∈ U) : Local U h0 (internalEventCount a b) (fun _ => True) :=
  bind' get' fun _ _ => ite' (pure' trivial) (bind' get' fun _ _ => bind' get' fun _ _ => bind' (perimetralEventCount ha hb) fun _ _ => pure' trivial)

theorem intRank (it : Iter) (ctx : List ℕ) {a b : EId} (ha : a ∈ U) (hb : b ∈ U) : Local U h0 (intRank it ctx a b) (fun _ => True) :=
  bind' get' fun _ _ => bind' (rank it _ _ a b ha hb) fun r _ => by
    cases r with
    | error x => exact pure' trivial
    | ok r => exact ite' (pure' trivial) (pure' trivial)

theorem maxRank (it : Iter) (ctx : List ℕ) : ∀ (l : List (EId × EId)) (m : ℕ), (∀ p ∈ l, p.1 ∈ U ∧ p.2 ∈ U) → Local U h0 (maxRank it ctx l m) (fun _ => True)
  | [], _, _ => pure' trivial
  | (a, b) :: t, m, hl => bind' (intRank it _ (hl (a, b) (by simp)).1 (hl (a, b) (by simp)).2) fun r _ => by
    cases r with
    | error x => exact pure' trivial
    | ok r => exact maxRank it ctx t _ (fun p hp => hl p (by simp [hp]))

theorem rankDown (it : Iter) {s : Finset EId} (hs : SetIn U s) {a : EId} (ha : a ∈ U) : Local U h0 (rankDown it s a) (fun _ => True) :=
  bind' get' fun h _ => ite' (bind' (maxRank it _ _ _ (fun p hp => by
    obtain ⟨b, hb, rfl⟩ := List.mem_map.1 hp
    exact ⟨ha, hs b (Finset.mem_inter.1 ((it.mem _ _ _).1 hb)).2⟩)) fun r _ => by cases r <;> exact pure' trivial) (pure' trivial)
theorem rankUp (it : Iter) {s : Finset EId} (hs : SetIn U s) {b : EId} (hb : b ∈ U) : Local U h0 (rankUp it s b) (fun _ => True) :=
  bind' get' fun h _ => ite' (bind' (maxRank it _ _ _ (fun p hp => by
    obtain ⟨a, ha, rfl⟩ := List.mem_map.1 hp
    exact ⟨hs a (Finset.mem_inter.1 ((it.mem _ _ _).1 ha)).2, hb⟩)) fun r _ => by cases r <;> exact pure' trivial) (pure' trivial)

/-- the set in the result, if there is a result, is in `U` -/
abbrev OkIn (U : Set EId) (r : Except Err (Finset EId)) : Prop := ∀ s, r = .ok s → SetIn U s

theorem okIn_ok {s : Finset EId} (hs : SetIn U s) : OkIn U (.ok s) := fun t ht => by cases ht; exact hs
theorem okIn_err (x : Err) : OkIn U (.error x) := fun _ ht => nomatch ht

theorem ranksFilter {num : EId → StateM Heap (Except Err ℤ)} (hn : ∀ e ∈ U, Local U h0 (num e) (fun _ => True)) (lo hi : ℤ) :
    ∀ (l : List EId) (acc : Finset EId), (∀ x ∈ l, x ∈ U) → SetIn U acc → Local U h0 (ranksFilter num lo hi l acc) (OkIn U)
  | [], _, _, ha => pure' (okIn_ok ha)
  | e :: es, acc, hl, ha => bind' (hn e (hl e (by simp))) fun r _ => by
    cases r with
    | error x => exact pure' (okIn_err x)
    | ok r =>
      refine ranksFilter hn lo hi es _ (fun x hx => hl x (by simp [hx])) ?_
      intro x hx
      split at hx
      · rcases Finset.mem_insert.1 hx with rfl | hx
        exacts [hl x (by simp), ha x hx]
      · exact ha x hx

theorem ranksPast (it : Iter) {s : Finset EId} (hs : SetIn U s) (first last : ℤ) : Local U h0 (ranksPast it s first last) (OkIn U) :=
  ite' (bind' get' fun _ i => ranksFilter (fun e he => rankDown it hs he) _ _ _ _ (fun x hx => i.pastOf_mem it hs true x ((it.mem _ _ _).1 hx)) (by simp [SetIn]))
    (pure' (okIn_ok (by simp [SetIn])))

theorem ranks (it : Iter) {s : Finset EId} (hs : SetIn U s) (first : ℤ) (last : Option ℤ) : Local U h0 (ranks it s first last) (OkIn U) := by
  refine ite' (pure' (okIn_ok (by simp [SetIn]))) (bind' (ranksPast it hs _ _) fun r hr => ?_)
  rcases r with x | r
  · exact pure' (okIn_err x)
  · exact ite' (bind' get' fun _ i => ranksFilter (fun e he => rankUp it hs he) _ _ _ _ (fun x hx => i.futureOf_mem it hs true x ((it.mem _ _ _).1 hx)) (hr r rfl)) (pure' hr)

theorem rankNumbersLoop {num : EId → StateM Heap (Except Err ℤ)} (hn : ∀ e ∈ U, Local U h0 (num e) (fun _ => True)) :
    ∀ l, (∀ x ∈ l, x ∈ U) → Local U h0 (rankNumbersLoop num l) (fun _ => True)
  | [], _ => pure' trivial
  | e :: es, hl => bind' (hn e (hl e (by simp))) fun r _ => by
    cases r with
    | error x => exact pure' trivial
    | ok r => exact bind' (rankNumbersLoop hn es (fun x hx => hl x (by simp [hx]))) fun r _ => by cases r <;> exact pure' trivial

theorem rankNumbers (it : Iter) {l : List EId} (hl : ∀ x ∈ l, x ∈ U) (reverse : Bool) : Local U h0 (rankNumbers it l reverse) (fun _ => True) := by
  have hs : SetIn U l.toFinset := fun x hx => hl x (List.mem_toFinset.1 hx)
  refine ite' (pure' trivial) (rankNumbersLoop (fun e he => ?_) l hl)
  split
  exacts [rankDown it hs he, rankUp it hs he]

/-- the paths in the result, if there is a result, are made of events of `U` -/
abbrev PathsIn (U : Set EId) (ps : List (List EId)) : Prop := ∀ p ∈ ps, ∀ x ∈ p, x ∈ U

theorem pathsLoop {f : EId → ℤ → ℤ → StateM Heap (Except Err PathsOut)} (hf : ∀ e ∈ U, ∀ mn mx, Local U h0 (f e mn mx) (fun r => ∀ o, r = .ok o → PathsIn U o.1)) :
    ∀ (l : List EId) (mn mx : ℤ), (∀ x ∈ l, x ∈ U) → Local U h0 (pathsLoop f l mn mx) (fun r => ∀ o, r = .ok o → PathsIn U o.1)
  | [], _, _, _ => pure' (fun o ho => by cases ho; simp [PathsIn])
  | e :: es, mn, mx, hl => by
    refine bind' (hf e (hl e (by simp)) mn mx) fun r hr => ?_
    rcases r with x | r
    · exact pure' (fun o ho => nomatch ho)
    · refine bind' (pathsLoop hf es _ _ (fun x hx => hl x (by simp [hx]))) fun r' hr' => ?_
      rcases r' with x | r'
      · exact pure' (fun o ho => nomatch ho)
      · refine pure' (fun o ho => ?_)
        cases ho
        intro p hp
        rcases List.mem_append.1 hp with hp | hp
        exacts [hr r rfl p hp, hr' r' rfl p hp]

theorem pathsFind (it : Iter) {b : EId} (hb : b ∈ U) (bL : Finset EId) (fm fx : Bool) :
    ∀ (fuel : ℕ) (path : List EId) (a : EId) (l mn mx : ℤ), a ∈ U → (∀ x ∈ path, x ∈ U) → Local U h0 (pathsFind it b bL fm fx fuel path a l mn mx) (fun r => ∀ o, r = .ok o → PathsIn U o.1)
  | 0, _, _, _, _, _, _, _ => pure' (fun o ho => nomatch ho)
  | fuel + 1, path, a, l, mn, mx, ha, hp => bind' (linkFuture ha) fun lf hlf => bind' get' fun h _ => by
    have hys : ∀ (t : Prop) [Decidable t], PathsIn U (if t then (it.ord (0 :: path) ((lf ∩ h.past b) ∩ bL)).map (fun e => path ++ [e, b]) else []) := by
      intro t _ p hq x hx
      split at hq
      · obtain ⟨e, he, rfl⟩ := List.mem_map.1 hq
        have he' := hlf e (Finset.mem_inter.1 (Finset.mem_inter.1 ((it.mem _ _ _).1 he)).1).1
        simp only [List.mem_append, List.mem_cons, List.not_mem_nil, or_false] at hx
        rcases hx with hx | rfl | rfl
        exacts [hp x hx, he', hb]
      · simp at hq
    refine ite' (pure' (fun o ho => by cases ho; exact hys _)) (ite' (pure' (fun o ho => by cases ho; exact hys _)) ?_)
    refine bind' (pathsLoop (fun e he mn mx => pathsFind it hb bL fm fx fuel (path ++ [e]) e (l + 1) mn mx he (fun x hx => ?_)) _ _ _ (fun x hx => ?_)) fun r hr => ?_
    · simp only [List.mem_append, List.mem_cons, List.not_mem_nil, or_false] at hx
      rcases hx with hx | rfl
      exacts [hp x hx, he]
    · exact hlf x (Finset.mem_inter.1 (Finset.mem_sdiff.1 ((it.mem _ _ _).1 hx)).1).1
    · cases r with
      | error x => exact pure' (fun o ho => nomatch ho)
      | ok r =>
        refine pure' (fun o ho => ?_)
        cases ho
        intro p hq
        rcases List.mem_append.1 hq with hq | hq
        exacts [hys _ p hq, hr r rfl p hq]

theorem pathsBody (it : Iter) {a b : EId} (ha : a ∈ U) (hb : b ∈ U) (fm fx : Bool) (mn mx : ℤ) :
    Local U h0 (pathsBody it a b fm fx mn mx) (fun r => ∀ o, r = .ok o → PathsIn U o) :=
  bind' get' fun _ _ => ite' (pure' (fun o ho => by cases ho; simp [PathsIn])) (ite' (pure' (fun o ho => by
      cases ho
      intro p hp x hx
      split at hp
      · simp at hp; subst hp; simp at hx; exact hx ▸ ha
      · simp at hp)) (bind' (isFutureLink ha b) fun _ _ => ite' (pure' (fun o ho => by
        cases ho
        intro p hp x hx
        split at hp
        · simp at hp; subst hp; simp at hx
          rcases hx with rfl | rfl
          exacts [ha, hb]
        · simp at hp)) (ite'
    (bind' (linkPast hb) fun _ _ => bind' get' fun _ _ => bind' get' fun _ _ => bind' (pathsFind it hb _ fm fx _ _ a _ _ _ ha (by simpa using ha)) fun r hr => by
      cases r with
      | error x => exact pure' (fun o ho => nomatch ho)
      | ok r => exact ite' (ite' (pure' (fun o ho => by cases ho; exact fun p hp => hr r rfl p (List.mem_filter.1 hp).1))
          (pure' (fun o ho => by cases ho; exact fun p hp => hr r rfl p (List.mem_filter.1 hp).1))) (pure' (fun o ho => by cases ho; exact hr r rfl)))
    (pure' (fun o ho => by cases ho; simp [PathsIn])))))

theorem paths (it : Iter) {a b : EId} (ha : a ∈ U) (hb : b ∈ U) : ∀ arg, Local U h0 (paths it a b arg) (fun r => ∀ o, r = .ok o → PathsIn U o)
  | .str _ => pathsBody it ha hb _ _ _ _
  | .int _ => pathsBody it ha hb _ _ _ _
  | .list [] => pure' (fun o ho => nomatch ho)
  | .list (_ :: _) => pathsBody it ha hb _ _ _ _
  | .other => pure' (fun o ho => nomatch ho)

end Local

/-! ## Programs that work on a part of the world -/

/-- **Specification.** A question (see `IsQuery`) whose arguments are events of `U`. -/
inductive QueryOn (U : Set EId) : {β : Type} → StateM Heap β → Prop
  | linkPast (e : EId) : e ∈ U → QueryOn U (linkPast e)
  | linkFuture (e : EId) : e ∈ U → QueryOn U (linkFuture e)
  | linkCone (e : EId) : e ∈ U → QueryOn U (linkCone e)
  | isPastLink (a b : EId) : a ∈ U → b ∈ U → QueryOn U (isPastLink a b)
  | isFutureLink (a b : EId) : a ∈ U → b ∈ U → QueryOn U (isFutureLink a b)
  | isLinkedTo (a b : EId) : a ∈ U → b ∈ U → QueryOn U (isLinkedTo a b)
  | linkPastCard (e : EId) : e ∈ U → QueryOn U (linkPastCard e)
  | linkFutureCard (e : EId) : e ∈ U → QueryOn U (linkFutureCard e)
  | linkConeCard (e : EId) : e ∈ U → QueryOn U (linkConeCard e)
  | linkCountOf (it : Iter) (s : Finset EId) : (∀ x ∈ s, x ∈ U) → QueryOn U (linkCountOf it s)
  | rank (it : Iter) (depth : ℕ) (ctx : List ℕ) (a b : EId) : a ∈ U → b ∈ U → QueryOn U (rank it depth ctx a b)
  | linkCount (it : Iter) (C : Finset EId) (s : Option (Finset EId)) : (∀ x ∈ C, x ∈ U) → (∀ t, s = some t → ∀ x ∈ t, x ∈ U) → QueryOn U (linkCount it C s)
  | linkPastMatrix (it : Iter) (as : ArgSort) (C : Finset EId) (l : Option (List EId)) : (∀ x ∈ C, x ∈ U) → (∀ t, l = some t → ∀ x ∈ t, x ∈ U) → QueryOn U (linkPastMatrix it as C l)
  | linkFutureMatrix (it : Iter) (as : ArgSort) (C : Finset EId) (l : Option (List EId)) : (∀ x ∈ C, x ∈ U) → (∀ t, l = some t → ∀ x ∈ t, x ∈ U) → QueryOn U (linkFutureMatrix it as C l)
  | isPath (it : Iter) (C : Finset EId) (s : Option (Finset EId)) : (∀ x ∈ C, x ∈ U) → (∀ t, s = some t → ∀ x ∈ t, x ∈ U) → QueryOn U (isPath it C s)
  | perimetralEvents (a b : EId) : a ∈ U → b ∈ U → QueryOn U (perimetralEvents a b)
  | perimetralEventCount (a b : EId) : a ∈ U → b ∈ U → QueryOn U (perimetralEventCount a b)
  | internalEvents (a b : EId) : a ∈ U → b ∈ U → QueryOn U (internalEvents a b)
  | internalEventCount (a b : EId) : a ∈ U → b ∈ U → QueryOn U (internalEventCount a b)
  | ranks (it : Iter) (s : Finset EId) (first : ℤ) (last : Option ℤ) : (∀ x ∈ s, x ∈ U) → QueryOn U (ranks it s first last)
  | rankNumbers (it : Iter) (l : List EId) (reverse : Bool) : (∀ x ∈ l, x ∈ U) → QueryOn U (rankNumbers it l reverse)
  | paths (it : Iter) (a b : EId) (arg : LenArg) : a ∈ U → b ∈ U → QueryOn U (paths it a b arg)

theorem QueryOn.local' {U : Set EId} {β : Type} {m : StateM Heap β} (hm : QueryOn U m) (h0 : Heap) : Local U h0 m (fun _ => True) := by
  have tr : ∀ {β : Type} {m : StateM Heap β} {Q : β → Prop}, Local U h0 m Q → Local U h0 m (fun _ => True) := fun l => l.mono (fun _ _ => trivial)
  cases hm with
  | linkPast e he => exact tr (.linkPast he)
  | linkFuture e he => exact tr (.linkFuture he)
  | linkCone e he => exact tr (.linkCone he)
  | isPastLink a b ha hb => exact .isPastLink ha b
  | isFutureLink a b ha hb => exact .isFutureLink ha b
  | isLinkedTo a b ha hb => exact .isLinkedTo ha b
  | linkPastCard e he => exact .linkPastCard he
  | linkFutureCard e he => exact .linkFutureCard he
  | linkConeCard e he => exact .linkConeCard he
  | linkCountOf it s hs => exact .linkCountOf it hs
  | rank it d ctx a b ha hb => exact .rank it d ctx a b ha hb
  | linkCount it C s hC hs => exact .linkCount it hC s hs
  | linkPastMatrix it as C l hC hl => exact .linkPastMatrix it as hC l hl
  | linkFutureMatrix it as C l hC hl => exact .linkFutureMatrix it as hC l hl
  | isPath it C s hC hs => exact .isPath it C s hs
  | perimetralEvents a b ha hb => exact tr (.perimetralEvents ha hb)
  | perimetralEventCount a b ha hb => exact .perimetralEventCount ha hb
  | internalEvents a b ha hb => exact tr (.internalEvents ha hb)
  | internalEventCount a b ha hb => exact .internalEventCount ha hb
  | ranks it s f l hs => exact tr (.ranks it hs f l)
  | rankNumbers it l r hl => exact .rankNumbers it hl r
  | paths it a b arg ha hb => exact tr (.paths it ha hb arg)

/-- **Specification.** The states reached from `w0` by sequences of calls whose arguments are events of `U`: all constructors of events and causets (plain, embedded, sprinkled), all
methods that change events or causets, all questions, assignments to labels and coordinates; in any order, for any iteration order of sets, any causality
function and any random numbers.  No other condition: the calls may misuse the library (merge causets that are not closed, `relate` a part of a causet, read a matrix that is no order,
...) and may end in exceptions. -/
inductive Work (U : Set EId) (w0 : World Point) : World Point → Prop
  | start : Work U w0 w0
  | newEvent (w : World Point) (it : Iter) (l : Option Label) (P F : List EId) : Work U w0 w → (∀ p ∈ P, p ∈ U) → (∀ p ∈ F, p ∈ U) → Work U w0 { w with heap := (w.heap.newEvent it l P F).2 }
  | copy (w : World Point) (e : EId) : Work U w0 w → e ∈ U → Work U w0 { w with heap := (w.heap.copy e).2 }
  | setLabel (w : World Point) (e : EId) (l : Option Label) : Work U w0 w → e ∈ U → Work U w0 { w with heap := { w.heap with label := update w.heap.label e l } }
  | embed (w : World Point) (e : EId) (x : Option Point) : Work U w0 w → e ∈ U → Work U w0 { w with crd := update w.crd e x }
  | link (w : World Point) (e : EId) : Work U w0 w → e ∈ U → Work U w0 { w with heap := w.heap.link e }
  | unlink (w : World Point) (e : EId) : Work U w0 w → e ∈ U → Work U w0 { w with heap := (w.heap.unlink e).2 }
  | disjoin (w : World Point) (it : Iter) (e : EId) : Work U w0 w → e ∈ U → Work U w0 { w with heap := (w.heap.disjoin it e).2 }
  | query (w : World Point) {β : Type} (m : StateM Heap β) : Work U w0 w → QueryOn U m → Work U w0 { w with heap := (m.run w.heap).2 }
  | fromPermutation (w : World Point) (it : Iter) (fmt : LabelFormat) (P : List ℤ) : Work U w0 w → Work U w0 { w with heap := (fromPermutation it fmt P w.heap).2 }
  | newChain (w : World Point) (it : Iter) (fmt : LabelFormat) (n : ℤ) : Work U w0 w → Work U w0 { w with heap := (newChain it fmt n w.heap).2 }
  | newAntichain (w : World Point) (it : Iter) (fmt : LabelFormat) (n : ℤ) : Work U w0 w → Work U w0 { w with heap := (newAntichain it fmt n w.heap).2 }
  | newFence (w : World Point) (it : Iter) (length height : ℤ) (closed : Bool) : Work U w0 w → Work U w0 { w with heap := (newFence it length height closed w.heap).2 }
  | newCrown (w : World Point) (it : Iter) (length : ℤ) : Work U w0 w → Work U w0 { w with heap := (newCrown it length w.heap).2 }
  | newSimplex (w : World Point) (it : Iter) (d : ℤ) (central : Bool) : Work U w0 w → Work U w0 { w with heap := (newSimplex it d central w.heap).2 }
  | fromPastMatrix (w : World Point) (it : Iter) (C : BMat) : Work U w0 w → Work U w0 { w with heap := (fromPastMatrix it C w.heap).2 }
  | fromFutureMatrix (w : World Point) (it : Iter) (C : BMat) : Work U w0 w → Work U w0 { w with heap := (fromFutureMatrix it C w.heap).2 }
  | fromTextFile (w : World Point) (it : Iter) (rd : ReadInt) (text : List Char) (p : Bool) (d : Char) : Work U w0 w → Work U w0 { w with heap := (fromTextFile it rd text p d w.heap).2 }
  | merge (w : World Point) (it : Iter) (P F : Finset EId) (d : Bool) : Work U w0 w → (∀ x ∈ P, x ∈ U) → (∀ x ∈ F, x ∈ U) → Work U w0 { w with heap := (merge it P F d w.heap).2 }
  | add (w : World Point) (it : Iter) (C s : Finset EId) (u : Bool) : Work U w0 w → (∀ x ∈ C, x ∈ U) → (∀ x ∈ s, x ∈ U) → Work U w0 { w with heap := (causetAdd it C s u w.heap).2.2 }
  | discard (w : World Point) (it : Iter) (C s : Finset EId) (u : Bool) : Work U w0 w → (∀ x ∈ C, x ∈ U) → (∀ x ∈ s, x ∈ U) → Work U w0 { w with heap := (causetDiscard it C s u w.heap).2.2 }
  | causetLink (w : World Point) (it : Iter) (C : Finset EId) : Work U w0 w → (∀ x ∈ C, x ∈ U) → Work U w0 { w with heap := (causetLink it C w.heap).2 }
  | causetUnlink (w : World Point) (it : Iter) (C : Finset EId) : Work U w0 w → (∀ x ∈ C, x ∈ U) → Work U w0 { w with heap := (causetUnlink it C w.heap).2 }
  | create (w : World Point) (c : Point → Point → Bool × Bool) (it : Iter) (C : Finset EId) (coords : List Point) (fmt : Option (ℕ → String)) (doRelate : Bool) : Work U w0 w →
      (∀ x ∈ C, x ∈ U) → Work U w0 (create c it C coords fmt doRelate w).2.2.2
  | relate (w : World Point) (c : Point → Point → Bool × Bool) (it : Iter) (C : Finset EId) (link : Bool) : Work U w0 w → (∀ x ∈ C, x ∈ U) → Work U w0 (relate c it C link w).2
  | relabel (w : World Point) {β : Type} (it : Iter) (C : Finset EId) (key : EId → β) (argsort : List β → List ℕ) (descending : Bool) : Work U w0 w → (∀ x ∈ C, x ∈ U) →
      (∀ l, ∀ j ∈ argsort l, j < l.length) → Work U w0 { w with heap := relabel it C key argsort descending w.heap }
  | embInit (w : World Point) (eps : ℝ) (it : Iter) (M : SpacetimeArg) (S : ShapeArg) (coords : CoordsArg) (dim : ℤ) : Work U w0 w → Work U w0 (embInit eps it M S coords dim w).2
  | embFromPermutation (w : World Point) (eps : ℝ) (it : Iter) (junk : ℕ → Point) (P : List ℤ) (fmt : Option (ℕ → String)) (radius : ℝ) : Work U w0 w →
      Work U w0 (embFromPermutation eps it junk P fmt radius w).2
  | sprInit (w : World Point) (eps : ℝ) (it : Iter) (R : Draws) (junk : ℕ → Point) (card : ℤ) (lam : ℝ) (k : ℕ) (dim : ℤ) (M : SpacetimeArg) (S : ShapeArg) : Work U w0 w →
      Work U w0 (sprInit eps it R junk card lam k dim M S w).2.world
  | sprinkle (s : SprState) (c : Point → Point → Bool × Bool) (it : Iter) (R : Draws) (junk : ℕ → Point) (dim : ℕ) (S : CoordinateShape) (count : ℤ) : Work U w0 s.world →
      (∀ x ∈ s.events, x ∈ U) → Work U w0 (s.sprinkle c it R junk dim S count).2.world
  | intensify (s : SprState) (c : Point → Point → Bool × Bool) (it : Iter) (R : Draws) (junk : ℕ → Point) (dim : ℕ) (S : CoordinateShape) (lam : ℝ) (k : ℕ) : Work U w0 s.world →
      (∀ x ∈ s.events, x ∈ U) → Work U w0 (s.intensify c it R junk dim S lam k).2.world
  | sprCreate (s : SprState) (c : Point → Point → Bool × Bool) (it : Iter) (coords : List Point) (fmt : Option (ℕ → String)) (doRelate : Bool) : Work U w0 s.world →
      (∀ x ∈ s.events, x ∈ U) → Work U w0 (s.create c it coords fmt doRelate).2.world
  | sprAdd (s : SprState) (it : Iter) (es : Finset EId) (u : Bool) : Work U w0 s.world → (∀ x ∈ s.events, x ∈ U) → (∀ x ∈ es, x ∈ U) → Work U w0 (s.add it es u).2.world
  | sprDiscard (s : SprState) (it : Iter) (es : Finset EId) (u : Bool) : Work U w0 s.world → (∀ x ∈ s.events, x ∈ U) → (∀ x ∈ es, x ∈ U) → Work U w0 (s.discard it es u).2.world

/-- the invariant of `Work` -/
structure Isolated2 (U : Set EId) (w0 w : World Point) : Prop where
  heap : Isolated U w0.heap w.heap
  crd : ∀ x, x ∉ U → w.crd x = w0.crd x

namespace Isolated2

variable {U : Set EId} {w0 w : World Point}

theorem create (hU : ∀ x, w0.heap.next ≤ x → x ∈ U) (i : Isolated2 U w0 w) (c : Point → Point → Bool × Bool) (it : Iter) {C : Finset EId} (hC : ∀ x ∈ C, x ∈ U) (coords : List Point)
    (fmt : Option (ℕ → String)) (doRelate : Bool) : Isolated2 U w0 (Causets.create c it C coords fmt doRelate w).2.2.2 ∧ (∀ x ∈ (Causets.create c it C coords fmt doRelate w).1, x ∈ U) ∧
      (∀ x ∈ (Causets.create c it C coords fmt doRelate w).2.1, x ∈ U) := by
  obtain ⟨a, b, d, e⟩ := Isolated.create c hU it hC coords fmt doRelate w i.heap
  exact ⟨⟨a, fun x hx => (e x hx).trans (i.crd x hx)⟩, b, d⟩

theorem embInit (hU : ∀ x, w0.heap.next ≤ x → x ∈ U) (i : Isolated2 U w0 w) (eps : ℝ) (it : Iter) (M : SpacetimeArg) (S : ShapeArg) (coords : CoordsArg) (dim : ℤ) :
    Isolated2 U w0 (Causets.embInit eps it M S coords dim w).2 ∧ ∀ E, (Causets.embInit eps it M S coords dim w).1 = .ok E → ∀ x ∈ E.events, x ∈ U := by
  unfold Causets.embInit
  split
  · exact ⟨i, fun E e => nomatch e⟩
  · exact ⟨i, fun E e => by cases e; simp⟩
  · next M' S' xs _ =>
    obtain ⟨a, b, -⟩ := i.create hU (M'.causality eps) it (C := ∅) (by simp) xs none true
    dsimp only
    split
    · exact ⟨a, fun E e => nomatch e⟩
    · exact ⟨a, fun E e => by cases e; exact b⟩

theorem embFromPermutation (hU : ∀ x, w0.heap.next ≤ x → x ∈ U) (i : Isolated2 U w0 w) (eps : ℝ) (it : Iter) (junk : ℕ → Point) (P : List ℤ) (fmt : Option (ℕ → String)) (radius : ℝ) :
    Isolated2 U w0 (Causets.embFromPermutation eps it junk P fmt radius w).2 ∧ ∀ C, (Causets.embFromPermutation eps it junk P fmt radius w).1 = .ok C → ∀ x ∈ C, x ∈ U := by
  unfold Causets.embFromPermutation
  split
  · exact ⟨i, fun E e => nomatch e⟩
  · split
    · exact ⟨i, fun E e => nomatch e⟩
    · next rows _ =>
      obtain ⟨a, b, -⟩ := i.create hU (causalityFlat2D eps) it (C := ∅) (by simp) rows fmt true
      dsimp only
      split
      · exact ⟨a, fun E e => nomatch e⟩
      · exact ⟨a, fun E e => by cases e; exact b⟩

/-- a sprinkled causet in the part `U` of the world -/
def Spr (U : Set EId) (w0 : World Point) (r : Except Err (Finset EId) × SprState) : Prop :=
  Isolated2 U w0 r.2.world ∧ (∀ x ∈ r.2.events, x ∈ U) ∧ ∀ s, r.1 = .ok s → ∀ x ∈ s, x ∈ U

theorem superCreate (hU : ∀ x, w0.heap.next ≤ x → x ∈ U) (s : SprState) (i : Isolated2 U w0 s.world) (hs : ∀ x ∈ s.events, x ∈ U) (c : Point → Point → Bool × Bool) (it : Iter) (coords : List Point)
    (fmt : Option (ℕ → String)) (doRelate : Bool) : Spr U w0 (s.superCreate c it coords fmt doRelate) := by
  obtain ⟨a, b, d⟩ := i.create hU c it hs coords fmt doRelate
  unfold SprState.superCreate
  dsimp only
  split
  · exact ⟨a, b, fun s e => nomatch e⟩
  · exact ⟨a, b, fun s e => by cases e; exact d⟩

theorem sprinkle (hU : ∀ x, w0.heap.next ≤ x → x ∈ U) (s : SprState) (i : Isolated2 U w0 s.world) (hs : ∀ x ∈ s.events, x ∈ U) (c : Point → Point → Bool × Bool) (it : Iter) (R : Draws)
    (junk : ℕ → Point) (dim : ℕ) (S : CoordinateShape) (count : ℤ) : Spr U w0 (s.sprinkle c it R junk dim S count) := by
  unfold SprState.sprinkle
  split
  · exact ⟨i, hs, fun s e => nomatch e⟩
  · dsimp only
    split
    · exact ⟨i, hs, fun s e => nomatch e⟩
    · exact superCreate hU ⟨s.events, s.intensity + count, s.world⟩ i hs c it _ _ _

theorem intensify (hU : ∀ x, w0.heap.next ≤ x → x ∈ U) (s : SprState) (i : Isolated2 U w0 s.world) (hs : ∀ x ∈ s.events, x ∈ U) (c : Point → Point → Bool × Bool) (it : Iter) (R : Draws)
    (junk : ℕ → Point) (dim : ℕ) (S : CoordinateShape) (lam : ℝ) (k : ℕ) : Spr U w0 (s.intensify c it R junk dim S lam k) := by
  unfold SprState.intensify
  split
  · exact ⟨i, hs, fun s e => nomatch e⟩
  · dsimp only
    split
    · exact ⟨i, hs, fun s e => nomatch e⟩
    · exact superCreate hU ⟨s.events, s.intensity + lam, s.world⟩ i hs c it _ _ _

theorem sprCreate (hU : ∀ x, w0.heap.next ≤ x → x ∈ U) (s : SprState) (i : Isolated2 U w0 s.world) (hs : ∀ x ∈ s.events, x ∈ U) (c : Point → Point → Bool × Bool) (it : Iter)
    (coords : List Point) (fmt : Option (ℕ → String)) (doRelate : Bool) : Spr U w0 (s.create c it coords fmt doRelate) := by
  obtain ⟨a, b, d⟩ := superCreate hU s i hs c it coords fmt doRelate
  unfold SprState.create
  dsimp only
  split
  · exact ⟨a, b, fun s e => nomatch e⟩
  · next es heq => exact ⟨a, b, fun s e => by cases e; exact d es heq⟩

theorem sprInit (hU : ∀ x, w0.heap.next ≤ x → x ∈ U) (i : Isolated2 U w0 w) (eps : ℝ) (it : Iter) (R : Draws) (junk : ℕ → Point) (card : ℤ) (lam : ℝ) (k : ℕ) (dim : ℤ) (M : SpacetimeArg)
    (S : ShapeArg) : Isolated2 U w0 (Causets.sprInit eps it R junk card lam k dim M S w).2.world ∧ ∀ x ∈ (Causets.sprInit eps it R junk card lam k dim M S w).2.events, x ∈ U := by
  obtain ⟨a, -⟩ := i.embInit hU eps it M S .none dim
  unfold Causets.sprInit
  split
  · next heq => rw [heq] at a; exact ⟨a, by simp⟩
  · next E w' heq =>
    rw [heq] at a
    have key : Spr U w0 (SprState.init (E.spacetime.causality eps) it R junk E.dim E.shape card lam k w') := by
      unfold SprState.init
      dsimp only
      split
      · exact sprinkle hU _ a (by simp) _ it R junk _ _ _
      · exact intensify hU _ a (by simp) _ it R junk _ _ _ _
    split
    · next heq => rw [heq] at key; exact ⟨key.1, key.2.1⟩
    · next heq => rw [heq] at key; exact ⟨key.1, key.2.1⟩

theorem sprAdd (s : SprState) (i : Isolated2 U w0 s.world) (hs : ∀ x ∈ s.events, x ∈ U) (it : Iter) (es : Finset EId) (he : ∀ x ∈ es, x ∈ U) (u : Bool) :
    Isolated2 U w0 (s.add it es u).2.world ∧ ∀ x ∈ (s.add it es u).2.events, x ∈ U := by
  obtain ⟨a, b⟩ := i.heap.causetAdd it hs he u
  unfold SprState.add
  dsimp only
  split
  · exact ⟨⟨a, i.crd⟩, b⟩
  · exact ⟨⟨a, i.crd⟩, b⟩

theorem sprDiscard (s : SprState) (i : Isolated2 U w0 s.world) (hs : ∀ x ∈ s.events, x ∈ U) (it : Iter) (es : Finset EId) (u : Bool) :
    Isolated2 U w0 (s.discard it es u).2.world ∧ ∀ x ∈ (s.discard it es u).2.events, x ∈ U := by
  obtain ⟨a, b⟩ := i.heap.causetDiscard it hs es u
  unfold SprState.discard
  dsimp only
  split
  · exact ⟨⟨a, i.crd⟩, b⟩
  · split
    · exact ⟨⟨a, i.crd⟩, b⟩
    · exact ⟨⟨a, i.crd⟩, b⟩

end Isolated2

theorem Work.isolated {U : Set EId} {w0 w : World Point} (hU : ∀ x, w0.heap.next ≤ x → x ∈ U) (hs : w0.heap.SelfContained U) (hw : Work U w0 w) : Isolated2 U w0 w := by
  have hv := Isolated.nx (U := U) (h0 := w0.heap)
  have nc := Isolated.newClosed hU
  induction hw with
  | start => exact ⟨⟨le_rfl, fun x _ => SameEvent.refl _ x, hs⟩, fun _ _ => rfl⟩
  | newEvent w it l P F _ hP hF i => exact ⟨i.heap.newEvent hU it l P F hP hF, i.crd⟩
  | copy w e _ he i => exact ⟨i.heap.copy hU he, i.crd⟩
  | setLabel w e l _ he i => exact ⟨i.heap.setLabel he l, i.crd⟩
  | embed w e x _ he i => exact ⟨i.heap, fun y hy => (Function.update_of_ne (fun h : y = e => hy (h ▸ he)) _ _).trans (i.crd y hy)⟩
  | link w e _ he i => exact ⟨i.heap.link he, i.crd⟩
  | unlink w e _ he i => exact ⟨i.heap.unlink he, i.crd⟩
  | disjoin w it e _ he i => exact ⟨i.heap.disjoin it he, i.crd⟩
  | query w m _ hm i => exact ⟨(hm.local' w0.heap w.heap i.heap).1, i.crd⟩
  | fromPermutation w it fmt P _ i => exact ⟨(nc.fromPermutation hv it fmt P w.heap i.heap).1, i.crd⟩
  | newChain w it fmt n _ i => exact ⟨(nc.fromPermutation hv it fmt _ w.heap i.heap).1, i.crd⟩
  | newAntichain w it fmt n _ i => exact ⟨(nc.fromPermutation hv it fmt _ w.heap i.heap).1, i.crd⟩
  | newFence w it l n cl _ i => exact ⟨(nc.newFence hv it l n cl w.heap i.heap).1, i.crd⟩
  | newCrown w it l _ i => exact ⟨(nc.newFence hv it l 1 true w.heap i.heap).1, i.crd⟩
  | newSimplex w it d ct _ i => exact ⟨(nc.newSimplex hv it d ct w.heap i.heap).1, i.crd⟩
  | fromPastMatrix w it C _ i => exact ⟨(Isolated.fromPastMatrix hU i.heap it C).1, i.crd⟩
  | fromFutureMatrix w it C _ i => exact ⟨(Isolated.fromPastMatrix hU i.heap it C.transpose).1, i.crd⟩
  | fromTextFile w it rd t p d _ i => exact ⟨(Isolated.fromTextFile hU i.heap it rd t p d).1, i.crd⟩
  | merge w it P F d _ hP hF i => exact ⟨(i.heap.merge it hP hF d).1, i.crd⟩
  | add w it C s u _ hC hs i => exact ⟨(i.heap.causetAdd it hC hs u).1, i.crd⟩
  | discard w it C s u _ hC hs i => exact ⟨(i.heap.causetDiscard it hC s u).1, i.crd⟩
  | causetLink w it C _ hC i => exact ⟨i.heap.causetLink it hC, i.crd⟩
  | causetUnlink w it C _ hC i => exact ⟨i.heap.causetUnlink it hC, i.crd⟩
  | create w c it C coords fmt dr _ hC i => exact (i.create hU c it hC coords fmt dr).1
  | relate w c it C l _ hC i =>
    obtain ⟨a, b⟩ := Isolated.relate c it hC l w i.heap
    exact ⟨a, fun x hx => by rw [b]; exact i.crd x hx⟩
  | relabel w it C key as d _ hC ha i => exact ⟨i.heap.relabel it hC key as ha d, i.crd⟩
  | embInit w eps it M S co dim _ i => exact (i.embInit hU eps it M S co dim).1
  | embFromPermutation w eps it junk P fmt r _ i => exact (i.embFromPermutation hU eps it junk P fmt r).1
  | sprInit w eps it R junk card lam k dim M S _ i => exact (i.sprInit hU eps it R junk card lam k dim M S).1
  | sprinkle s c it R junk dim S n _ hs i => exact (Isolated2.sprinkle hU s i hs c it R junk dim S n).1
  | intensify s c it R junk dim S lam k _ hs i => exact (Isolated2.intensify hU s i hs c it R junk dim S lam k).1
  | sprCreate s c it co fmt dr _ hs i => exact (Isolated2.sprCreate hU s i hs c it co fmt dr).1
  | sprAdd s it es u _ hs he i => exact (Isolated2.sprAdd s i hs it es he u).1
  | sprDiscard s it es u _ hs he i => exact (Isolated2.sprDiscard s i hs it es u).1

/-! ## The theorems -/

/-- **C105, nothing outside changes.** Let nothing lead out of the set `U` of events, to which all events belong that do not exist yet.  Whatever a program does with events of `U` -- with
any misuse of the library and any exceptions -- the events outside `U` keep their labels, pasts, futures, link memories and coordinates, and still nothing leads out of `U`. -/
theorem C105_isolated (U : Set EId) (w0 w : World Point) (hU : ∀ x, ¬ w0.heap.Exists x → x ∈ U) (hs : w0.heap.SelfContained U) (hw : Work U w0 w) :
    (∀ x, x ∉ U → SameEvent w0.heap w.heap x ∧ w.crd x = w0.crd x ∧ (w.heap.Exists x ↔ w0.heap.Exists x)) ∧ w.heap.SelfContained U := by
  have hU' : ∀ x, w0.heap.next ≤ x → x ∈ U := fun x hx => hU x (by unfold Heap.Exists; omega)
  have i := hw.isolated hU' hs
  refine ⟨fun x hx => ⟨i.heap.out x hx, i.crd x hx, ?_⟩, i.heap.inn⟩
  have h1 : w0.heap.Exists x := not_not.1 (fun h => hx (hU x h))
  exact ⟨fun _ => h1, fun _ => lt_of_lt_of_le h1 i.heap.next⟩

/-- **C105, results.** The events such a program gets as results are again events of `U`: it cannot get hold of an event outside. -/
theorem C105_results (U : Set EId) (w0 w : World Point) (hU : ∀ x, ¬ w0.heap.Exists x → x ∈ U) (hs : w0.heap.SelfContained U) (hw : Work U w0 w) (it : Iter) :
    (∀ l P F, (w.heap.newEvent it l P F).1 ∈ U) ∧ (∀ e ∈ U, (w.heap.copy e).1 ∈ U) ∧
    (∀ e ∈ U, (∀ x ∈ w.heap.past e, x ∈ U) ∧ (∀ x ∈ w.heap.future e, x ∈ U)) ∧
    (∀ e ∈ U, (∀ x ∈ ((linkPast e).run w.heap).1, x ∈ U) ∧ (∀ x ∈ ((linkFuture e).run w.heap).1, x ∈ U) ∧ ∀ x ∈ ((linkCone e).run w.heap).1, x ∈ U) ∧
    (∀ a ∈ U, ∀ b ∈ U, (∀ x ∈ ((perimetralEvents a b).run w.heap).1, x ∈ U) ∧ (∀ x ∈ ((internalEvents a b).run w.heap).1, x ∈ U) ∧
      ∀ arg ps, ((paths it a b arg).run w.heap).1 = .ok ps → ∀ p ∈ ps, ∀ x ∈ p, x ∈ U) ∧
    (∀ s : Finset EId, (∀ x ∈ s, x ∈ U) → (∀ f l R, ((ranks it s f l).run w.heap).1 = .ok R → ∀ x ∈ R, x ∈ U) ∧
      (∀ C, w.heap.causetInit it s = .ok C → ∀ x ∈ C, x ∈ U)) ∧
    (∀ C, (∀ fmt P, (fromPermutation it fmt P w.heap).1 = .ok C → ∀ x ∈ C, x ∈ U) ∧ (∀ l n cl, (newFence it l n cl w.heap).1 = .ok C → ∀ x ∈ C, x ∈ U) ∧
      (∀ d ct, (newSimplex it d ct w.heap).1 = .ok C → ∀ x ∈ C, x ∈ U) ∧ (∀ M, (fromPastMatrix it M w.heap).1 = .ok C → ∀ x ∈ C, x ∈ U) ∧
      (∀ rd t p d, (fromTextFile it rd t p d w.heap).1 = .ok C → ∀ x ∈ C, x ∈ U) ∧
      (∀ P F d, (∀ x ∈ P, x ∈ U) → (∀ x ∈ F, x ∈ U) → (merge it P F d w.heap).1 = .ok C → ∀ x ∈ C, x ∈ U)) ∧
    (∀ (c : Point → Point → Bool × Bool) (C : Finset EId) coords fmt dr, (∀ x ∈ C, x ∈ U) → (∀ x ∈ (create c it C coords fmt dr w).1, x ∈ U) ∧ ∀ x ∈ (create c it C coords fmt dr w).2.1, x ∈ U) ∧
    (∀ eps M S co dim E, (embInit eps it M S co dim w).1 = .ok E → ∀ x ∈ E.events, x ∈ U) ∧
    (∀ eps R junk card lam k dim M S, ∀ x ∈ (sprInit eps it R junk card lam k dim M S w).2.events, x ∈ U) := by
  have hU' : ∀ x, w0.heap.next ≤ x → x ∈ U := fun x hx => hU x (by unfold Heap.Exists; omega)
  have i := hw.isolated hU' hs
  have hv := Isolated.nx (U := U) (h0 := w0.heap)
  have nc := Isolated.newClosed hU'
  refine ⟨fun l P F => by rw [newEvent_fst]; exact hU' _ i.heap.next, fun e _ => ?_, fun e he => ⟨(i.heap.inn e he).1, (i.heap.inn e he).2.1⟩,
    fun e he => ⟨(Local.linkPast he w.heap i.heap).2, (Local.linkFuture he w.heap i.heap).2, (Local.linkCone he w.heap i.heap).2⟩,
    fun a ha b hb => ⟨(Local.perimetralEvents ha hb w.heap i.heap).2, (Local.internalEvents ha hb w.heap i.heap).2, fun arg ps e => (Local.paths it ha hb arg w.heap i.heap).2 ps e⟩,
    fun s hs => ⟨fun f l R e => (Local.ranks it hs f l w.heap i.heap).2 R e, fun C e => i.heap.causetInit_mem it hs e⟩,
    fun C => ⟨fun fmt P e => (Isolated.constructor hU' (nc.fromPermutation hv it fmt P w.heap i.heap)).2 C e,
      fun l n cl e => (Isolated.constructor hU' (nc.newFence hv it l n cl w.heap i.heap)).2 C e,
      fun d ct e => (Isolated.constructor hU' (nc.newSimplex hv it d ct w.heap i.heap)).2 C e,
      fun M e => (Isolated.fromPastMatrix hU' i.heap it M).2 C e, fun rd t p d e => (Isolated.fromTextFile hU' i.heap it rd t p d).2 C e,
      fun P F d hP hF e => (i.heap.merge it hP hF d).2 C e⟩,
    fun c C co fmt dr hC => (i.create hU' c it hC co fmt dr).2, fun eps M S co dim E e => (i.embInit hU' eps it M S co dim).2 E e,
    fun eps R junk card lam k dim M S => (i.sprInit hU' eps it R junk card lam k dim M S).2⟩
  have : (w.heap.copy e).1 = w.heap.next := by unfold Heap.copy; rfl
  rw [this]; exact hU' _ i.heap.next

/-- **C105, two causets.** Let `D` be a causet (closed set of events) in a state reached by a program of `C89`.  A second program that never gets an event of `D` as an
argument leaves `D` as it is: past, future and labels of its events, the answers about links, the order, the coordinates, and `D` is still a closed set with no relation to other
events. -/
theorem C105_two_causets (w0 w : World Point) (hp : Program true w0.heap) (D : Finset EId) (hD : Closed w0.heap.Lt D) (hDe : ∀ x ∈ D, w0.heap.Exists x)
    (hw : Work {x | x ∉ D} w0 w) :
    (∀ x ∈ D, w.heap.past x = w0.heap.past x ∧ w.heap.future x = w0.heap.future x ∧ w.heap.label x = w0.heap.label x ∧ w.crd x = w0.crd x ∧
      ((linkPast x).run w.heap).1 = ((linkPast x).run w0.heap).1 ∧ ((linkFuture x).run w.heap).1 = ((linkFuture x).run w0.heap).1 ∧
      ∀ y, (w.heap.Lt x y ↔ w0.heap.Lt x y) ∧ (w.heap.Lt y x ↔ w0.heap.Lt y x)) ∧
    Closed w.heap.Lt D := by
  obtain ⟨v, lx⟩ := hp.inv
  have lx := lx rfl
  have lt : ∀ {a b}, a ∈ w0.heap.prec b → w0.heap.Lt a b := fun {a b} h => (v.past_eq a b).1 h
  have ltf : ∀ {a b}, b ∈ w0.heap.succ a → w0.heap.Lt a b := fun {a b} h => (v.future_eq a b).1 h
  have hs : w0.heap.SelfContained {x | x ∉ D} := by
    intro x hx
    refine ⟨fun y hy hyD => hx (hD y hyD x (.inl (lt hy))), fun y hy hyD => hx (hD y hyD x (.inr (ltf hy))), fun s hs y hy hyD => hx (hD y hyD x (.inl ((lx.past x s hs y).1 hy).1)),
      fun s hs y hy hyD => hx (hD y hyD x (.inr ((lx.future x s hs y).1 hy).1))⟩
  obtain ⟨hout, hin⟩ := C105_isolated {x | x ∉ D} w0 w (fun x hx hxD => hx (hDe x hxD)) hs hw
  have hout : ∀ x ∈ D, SameEvent w0.heap w.heap x ∧ w.crd x = w0.crd x ∧ (w.heap.Exists x ↔ w0.heap.Exists x) := fun x hx => hout x (fun h => h hx)
  have hprec : ∀ x ∈ D, w.heap.prec x = w0.heap.prec x := fun x hx => (hout x hx).1.2.1
  have hsucc : ∀ x ∈ D, w.heap.succ x = w0.heap.succ x := fun x hx => (hout x hx).1.2.2.1
  have mprec : ∀ x ∈ D, ∀ y ∈ w0.heap.prec x, y ∈ D := fun x hx y hy => hD x hx y (.inr (lt hy))
  have msucc : ∀ x ∈ D, ∀ y ∈ w0.heap.succ x, y ∈ D := fun x hx y hy => hD x hx y (.inl (ltf hy))
  have h1 : ∀ x ∈ D, ∀ y, w.heap.Lt y x ↔ w0.heap.Lt y x := fun x hx y => by
    unfold Heap.Lt Heap.lt; rw [hprec x hx]
  have h2 : ∀ x ∈ D, ∀ y, w.heap.Lt x y ↔ w0.heap.Lt x y := fun x hx y => by
    by_cases hy : y ∈ D
    · exact h1 y hy x
    · refine ⟨fun h => ?_, fun h => absurd (hD x hx y (.inl h)) hy⟩
      exact absurd hx ((hin y hy).1 x (by unfold Heap.Lt Heap.lt at h; exact of_decide_eq_true h))
  have hL : ∀ x ∈ D, ∀ y ∈ D, w.heap.isLink x y = w0.heap.isLink x y := fun x hx y hy => by
    unfold Heap.isLink; rw [hsucc x hx, hprec y hy]
  have pL : ∀ x ∈ D, w.heap.pastLinks x = w0.heap.pastLinks x := fun x hx => by
    unfold Heap.pastLinks
    rw [hprec x hx]
    exact Finset.filter_congr (fun y hy => by rw [hL y (mprec x hx y hy) x hx])
  have fL : ∀ x ∈ D, w.heap.futureLinks x = w0.heap.futureLinks x := fun x hx => by
    unfold Heap.futureLinks
    rw [hsucc x hx]
    exact Finset.filter_congr (fun y hy => by rw [hL x hx y (msucc x hx y hy)])
  refine ⟨fun x hx => ⟨hprec x hx, hsucc x hx, (hout x hx).1.1, (hout x hx).2.1, ?_, ?_, fun y => ⟨h2 x hx y, h1 x hx y⟩⟩, fun x hx y hy => hD x hx y (hy.imp (h2 x hx y).1 (h1 x hx y).1)⟩
  · show ((linkPast x) w.heap).1 = ((linkPast x) w0.heap).1
    unfold linkPast
    rw [(hout x hx).1.2.2.2.1, pL x hx]
    split <;> rfl
  · show ((linkFuture x) w.heap).1 = ((linkFuture x) w0.heap).1
    unfold linkFuture
    rw [(hout x hx).1.2.2.2.2, fL x hx]
    split <;> rfl

theorem exChain3_program : Program true exChain3 := by
  refine .newEvent _ _ _ _ _ (.newEvent _ _ _ _ _ (.newEvent _ _ _ _ _ .start ?_ ?_ ?_) ?_ ?_ ?_) ?_ ?_ ?_ <;>
    simp [Heap.Exists, Heap.newEvent_fst] <;> decide

/-- C105: beside the chain 0 < 1 < 2 (`D`) a program creates the events 3, 4 and 5 > 3, merges {4} and {3} although 5 is left out (not
closed sets), and disjoins 4 without link memory (an AttributeError); the hypotheses of all three theorems hold, and they need them: working on the event 1 of the chain does
change the event 2 -/
theorem C105_case : ∃ w : World Point, Program true exChain3 ∧ Closed exChain3.Lt {0, 1, 2} ∧ (∀ x ∈ ({0, 1, 2} : Finset EId), exChain3.Exists x) ∧
    Work {x | x ∉ ({0, 1, 2} : Finset EId)} ⟨exChain3, fun _ => none⟩ w ∧ w.heap.Lt 3 5 ∧ w.heap.Exists 5 ∧
    ((exChain3.link 1).disjoin Iter.asc 1).2.prec 2 ≠ exChain3.prec 2 := by
  have p0 : Work {x | x ∉ ({0, 1, 2} : Finset EId)} ⟨exChain3, fun _ => none⟩ ⟨exChain3, fun _ => none⟩ := .start
  have p1 := Work.newEvent _ Iter.asc none [] [] p0 (by simp) (by simp)
  have p2 := Work.newEvent _ Iter.asc none [] [] p1 (by simp) (by simp)
  have p3 := Work.newEvent _ Iter.asc none [3] [] p2 (by simp) (by simp)
  have p4 := Work.merge _ Iter.asc {4} {3} false p3 (by simp) (by simp)
  have p5 := Work.disjoin _ Iter.asc 4 p4 (by simp)
  refine ⟨_, exChain3_program, ?_, ?_, p5, by decide, by decide, by decide⟩
  · have v := exChain3_program.inv.1
    intro a _ b hab
    have : b < 3 := hab.elim (fun h => (v.exists_of_lt _ _ h).2) (fun h => (v.exists_of_lt _ _ h).1)
    simp only [Finset.mem_insert, Finset.mem_singleton]
    omega
  · decide

end Causets
