import Verif.Lemmas.NewClosed
import Verif.Props.Matrix
import Verif.Props.TextFile
import Verif.Props.Program
import Verif.Model.Embedding

/-! # C93 — constructing a causet does not touch the events that exist -/

namespace Causets

open Heap

/-- **Specification.** Between the states `h` and `g` nothing has happened to the events that existed in `h`: they have the same labels, pasts, futures and link memory, and no event created
since then has one of them in its past or future. -/
structure Untouched (h g : Heap) : Prop where
  next : h.next ≤ g.next
  same : ∀ x, h.Exists x → g.label x = h.label x ∧ g.past x = h.past x ∧ g.future x = h.future x ∧ g.lprec x = h.lprec x ∧ g.lsucc x = h.lsucc x
  apart : ∀ x y, h.Exists x → ¬ h.Exists y → x ∉ g.past y ∧ x ∉ g.future y

theorem Untouched.refl {h : Heap} (v : h.Valid) : Untouched h h where
  next := le_rfl
  same _ _ := ⟨rfl, rfl, rfl, rfl, rfl⟩
  apart x y _ hy := ⟨fun hh => hy (v.exists_of_lt _ _ ((v.past_eq _ _).1 hh)).2, fun hh => hy (v.exists_of_lt _ _ ((v.future_eq _ _).1 hh)).1⟩

theorem Untouched.newClosed (h : Heap) : NewClosed h.next (fun g => g.Valid ∧ Untouched h g) := by
  rintro g it l P ⟨v, u⟩ hP
  have hE : ∀ p ∈ P, g.Exists p := fun p hp => (hP p hp).2
  refine ⟨newEvent_valid it g v l P [] hE (by simp) (by simp), ?_⟩
  obtain ⟨-, a1, a2, a3, a4, ⟨-, a6⟩, -, a8⟩ := newEvent_fields it g v l P [] hE (by simp)
  have hD : ∀ x ∈ P.foldl (fun acc x => acc ∪ g.presentOrPast x) ∅, h.next ≤ x := by
    intro x hx
    rw [foldl_union_mem] at hx
    rcases hx with hx | ⟨p, hp, hx⟩
    · simp at hx
    · have hpp := (hP p hp).1
      simp only [presentOrPast, Finset.mem_union, Finset.mem_singleton] at hx
      rcases hx with hx | hx
      · by_contra hlt
        exact (u.apart x p (by unfold Heap.Exists; omega) (by unfold Heap.Exists; omega)).1 hx
      · rw [hx]; exact hpp
  have hx0 : ∀ x, h.Exists x → x ≠ g.next := fun x hx => by
    have := u.next
    unfold Heap.Exists at hx
    exact fun he => by rw [he] at hx; omega
  have hxD : ∀ x, h.Exists x → x ∉ P.foldl (fun acc x => acc ∪ g.presentOrPast x) ∅ := fun x hx hd => by
    have := hD x hd
    unfold Heap.Exists at hx
    omega
  refine ⟨by rw [a1]; have := u.next; omega, fun x hx => ?_, fun x y hx hy => ?_⟩
  · obtain ⟨b1, b2, b3, b4, b5⟩ := u.same x hx
    refine ⟨by rw [a2, Function.update_of_ne (hx0 x hx), b1], ?_, ?_, ?_, ?_⟩
    · rw [past, a3, if_neg (hx0 x hx), if_neg (by simp)]; exact b2
    · rw [future, a4, if_neg (hx0 x hx), if_neg (hxD x hx)]; exact b3
    · rw [(a6 x (hx0 x hx)).2 (by simp), b4]
    · rw [(a8 x (hx0 x hx)).2 (fun hh => hxD x hx hh.1), b5]
  · constructor
    · rw [past, a3]
      split_ifs with h1 h2
      · exact hxD x hx
      · simp at h2
      · exact (u.apart x y hx hy).1
    · rw [future, a4]
      split_ifs with h1 h2
      · simp
      · rw [Finset.mem_insert, not_or]
        exact ⟨hx0 x hx, (u.apart x y hx hy).2⟩
      · exact (u.apart x y hx hy).2

/-- the closure of a set of new events consists of new events -/
theorem Untouched.causetInit {h g : Heap} (u : Untouched h g) (it : Iter) (S C : Finset EId) (hS : ∀ e ∈ S, ¬ h.Exists e) (e1 : g.causetInit it S = .ok C) : ∀ e ∈ C, ¬ h.Exists e := by
  have step : ∀ s : Finset EId, (∀ e ∈ s, ¬ h.Exists e) → ∀ e ∈ g.coneOf it s true false, ¬ h.Exists e := by
    intro s hs e he hex
    simp only [coneOf, foldl_union_mem, it.mem, Bool.and_false, Bool.false_eq_true, if_false, if_true, Finset.mem_union, Finset.notMem_empty, false_or] at he
    rcases he with ⟨a, ha, h1 | h1⟩ | he
    · exact (u.apart e a hex (hs a ha)).1 h1
    · exact (u.apart e a hex (hs a ha)).2 h1
    · exact hs e he hex
  have key : ∀ (n : ℕ) (s : Finset EId), (∀ e ∈ s, ¬ h.Exists e) → g.initLoop it n s = .ok C → ∀ e ∈ C, ¬ h.Exists e := by
    intro n
    induction n with
    | zero => intro s _ hh; cases hh
    | succ n ih =>
      intro s hs hh
      unfold initLoop at hh
      dsimp only at hh
      split_ifs at hh with hc
      · cases hh; exact step s hs
      · exact ih _ (step s hs) hh
  exact key _ S hS e1

theorem untouched_of_newClosed {h g : Heap} {it : Iter} {r : Except Err (Finset EId)}
    (q : (g.Valid ∧ Untouched h g) ∧ ∀ x, r = .ok x → ∃ S : Finset EId, (∀ e ∈ S, g.In h.next e) ∧ g.causetInit it S = .ok x) :
    Untouched h g ∧ ∀ C, r = .ok C → ∀ e ∈ C, ¬ h.Exists e := by
  refine ⟨q.1.2, fun C e1 => ?_⟩
  obtain ⟨S, hS, e2⟩ := q.2 C e1
  exact q.1.2.causetInit it S C (fun e he hx => by have := (hS e he).1; unfold Heap.Exists at hx; omega) e2

theorem pastMatrixLoop1_untouched {h : Heap} (C : BMat) (evs : List EId) (hev : ∀ e ∈ evs, ¬ h.Exists e) (h1 : C.cols ≤ evs.length) (h2 : C.rows ≤ evs.length) :
    ∀ (n i : ℕ) (g : Heap), i + n ≤ evs.length → Untouched h g → Untouched h (pastMatrixLoop1 C evs n i g).2 := by
  intro n
  induction n with
  | zero => intro i g _ u; exact u
  | succ n ih =>
    intro i g hi u
    unfold pastMatrixLoop1
    dsimp only
    split_ifs with hc
    · exact u
    · refine ih (i + 1) _ (by omega) ?_
      have he : ¬ h.Exists (evs.getD i 0) := hev _ (getD_mem_list evs (by omega))
      have hne : ∀ x, h.Exists x → x ≠ evs.getD i 0 := fun x hx hh => he (hh ▸ hx)
      refine ⟨u.next, fun x hx => ?_, fun x y hx hy => ?_⟩
      · obtain ⟨b1, b2, b3, b4, b5⟩ := u.same x hx
        refine ⟨b1, ?_, ?_, b4, b5⟩
        · simp only [past, Function.update_of_ne (hne x hx)]; exact b2
        · simp only [future, Function.update_of_ne (hne x hx)]; exact b3
      · have hmem : ∀ (m : ℕ) (p : ℕ → Bool), m ≤ evs.length → x ∉ (((List.range m).filter p).map (fun j => evs.getD j 0)).toFinset := by
          intro m p hm hh
          rw [List.mem_toFinset, List.mem_map] at hh
          obtain ⟨j, hj, rfl⟩ := hh
          have := List.mem_range.1 (List.mem_filter.1 hj).1
          exact hev _ (getD_mem_list evs (by omega)) hx
        by_cases hy2 : y = evs.getD i 0
        · simp only [past, future, hy2, Function.update_self]
          exact ⟨hmem _ _ h1, hmem _ _ h2⟩
        · simp only [past, future, Function.update_of_ne hy2]
          exact u.apart x y hx hy

theorem pastMatrixLoop2_untouched {h : Heap} (it : Iter) : ∀ (evs : List EId) (g : Heap), (∀ e ∈ evs, ¬ h.Exists e) → Untouched h g → Untouched h (pastMatrixLoop2 it evs g) := by
  intro evs
  induction evs with
  | nil => intro g _ u; exact u
  | cons e es ih =>
    intro g hev u
    unfold pastMatrixLoop2
    refine ih _ (fun x hx => hev x (by simp [hx])) ?_
    have he : ¬ h.Exists e := hev e (by simp)
    have hne : ∀ x, h.Exists x → x ≠ e := fun x hx hh => he (hh ▸ hx)
    have u1 : Untouched h { g with prec := Function.update g.prec e (g.pastOf it (g.prec e) true false) } := by
      refine ⟨u.next, fun x hx => ?_, fun x y hx hy => ?_⟩
      · obtain ⟨b1, b2, b3, b4, b5⟩ := u.same x hx
        refine ⟨b1, ?_, b3, b4, b5⟩
        simp only [past, Function.update_of_ne (hne x hx)]; exact b2
      · refine ⟨?_, (u.apart x y hx hy).2⟩
        by_cases hy2 : y = e
        · simp only [past, hy2, Function.update_self]
          simp only [pastOf, foldl_union_mem, it.mem, Bool.and_false, Bool.false_eq_true, if_false, if_true, Finset.mem_union, Finset.notMem_empty, false_or, not_or, not_exists, not_and]
          refine ⟨fun z hz => (u.apart x z hx fun hzx => ?_).1, (u.apart x e hx he).1⟩
          exact (u.apart z e hzx he).1 hz
        · simp only [past, Function.update_of_ne hy2]; exact (u.apart x y hx hy).1
    generalize ({ g with prec := Function.update g.prec e (g.pastOf it (g.prec e) true false) } : Heap) = g1 at u1
    refine ⟨u1.next, fun x hx => ?_, fun x y hx hy => ?_⟩
    · obtain ⟨b1, b2, b3, b4, b5⟩ := u1.same x hx
      refine ⟨b1, b2, ?_, b4, b5⟩
      simp only [future, Function.update_of_ne (hne x hx)]; exact b3
    · refine ⟨(u1.apart x y hx hy).1, ?_⟩
      by_cases hy2 : y = e
      · simp only [future, hy2, Function.update_self]
        simp only [futureOf, foldl_union_mem, it.mem, Bool.and_false, Bool.false_eq_true, if_false, if_true, Finset.mem_union, Finset.notMem_empty, false_or, not_or, not_exists, not_and]
        refine ⟨fun z hz => (u1.apart x z hx fun hzx => ?_).2, (u1.apart x e hx he).2⟩
        exact (u1.apart z e hzx he).2 hz
      · simp only [future, Function.update_of_ne hy2]; exact (u1.apart x y hx hy).2

/-- **C93, constructors of orders.** In every state, for all arguments and also if the call raises an exception: the constructors leave all existing events as they are, and all events of the new causet are new. -/
theorem C93_constructors (h : Heap) (v : h.Valid) (it : Iter) :
    (∀ fmt P, Untouched h (fromPermutation it fmt P h).2 ∧ ∀ C, (fromPermutation it fmt P h).1 = .ok C → ∀ e ∈ C, ¬ h.Exists e) ∧
    (∀ fmt n, Untouched h (newChain it fmt n h).2 ∧ ∀ C, (newChain it fmt n h).1 = .ok C → ∀ e ∈ C, ¬ h.Exists e) ∧
    (∀ fmt n, Untouched h (newAntichain it fmt n h).2 ∧ ∀ C, (newAntichain it fmt n h).1 = .ok C → ∀ e ∈ C, ¬ h.Exists e) ∧
    (∀ l n cl, Untouched h (newFence it l n cl h).2 ∧ ∀ C, (newFence it l n cl h).1 = .ok C → ∀ e ∈ C, ¬ h.Exists e) ∧
    (∀ l, Untouched h (newCrown it l h).2 ∧ ∀ C, (newCrown it l h).1 = .ok C → ∀ e ∈ C, ¬ h.Exists e) ∧
    (∀ d ct, Untouched h (newSimplex it d ct h).2 ∧ ∀ C, (newSimplex it d ct h).1 = .ok C → ∀ e ∈ C, ¬ h.Exists e) := by
  have hV : ∀ g, (g.Valid ∧ Untouched h g) → h.next ≤ g.next := fun g q => q.2.next
  have q : h.Valid ∧ Untouched h h := ⟨v, Untouched.refl v⟩
  have nc := Untouched.newClosed h
  exact ⟨fun fmt P => untouched_of_newClosed (nc.fromPermutation hV it fmt P h q), fun fmt n => untouched_of_newClosed (nc.fromPermutation hV it fmt _ h q),
    fun fmt n => untouched_of_newClosed (nc.fromPermutation hV it fmt _ h q), fun l n cl => untouched_of_newClosed (nc.newFence hV it l n cl h q),
    fun l => untouched_of_newClosed (nc.newFence hV it l 1 true h q), fun d ct => untouched_of_newClosed (nc.newSimplex hV it d ct h q)⟩

/-- **C93, matrices and files.** The same for `FromPastMatrix`, `FromFutureMatrix` and `FromTextFile`, for all matrices (orders or not, square or not) and files. -/
theorem C93_matrices (h : Heap) (v : h.Valid) (it : Iter) :
    (∀ M, Untouched h (fromPastMatrix it M h).2 ∧ ∀ C, (fromPastMatrix it M h).1 = .ok C → ∀ e ∈ C, ¬ h.Exists e) ∧
    (∀ M, Untouched h (fromFutureMatrix it M h).2 ∧ ∀ C, (fromFutureMatrix it M h).1 = .ok C → ∀ e ∈ C, ¬ h.Exists e) ∧
    (∀ rd text p d, Untouched h (fromTextFile it rd text p d h).2 ∧ ∀ C, (fromTextFile it rd text p d h).1 = .ok C → ∀ e ∈ C, ¬ h.Exists e) := by
  have hV : ∀ g, (g.Valid ∧ Untouched h g) → h.next ≤ g.next := fun g q => q.2.next
  have q : h.Valid ∧ Untouched h h := ⟨v, Untouched.refl v⟩
  have main : ∀ M, Untouched h (fromPastMatrix it M h).2 ∧ ∀ C, (fromPastMatrix it M h).1 = .ok C → ∀ e ∈ C, ¬ h.Exists e := by
    intro M
    unfold fromPastMatrix
    split_ifs with hc
    · exact ⟨q.2, fun C e1 => nomatch e1⟩
    · dsimp only
      obtain ⟨a, b, c, -⟩ := (Untouched.newClosed h).newEvents hV it ((List.range M.cols).map (fun (i : ℕ) => (some (Label.int ((i : ℤ) + 1)), []))) h q (by
        intro p hp x hx
        obtain ⟨l, -, rfl⟩ := List.mem_map.1 hp
        simp at hx)
      rw [List.length_map, List.length_range] at b
      have hn : ∀ e ∈ (newEvents it ((List.range M.cols).map (fun (i : ℕ) => (some (Label.int ((i : ℤ) + 1)), []))) h).1, ¬ h.Exists e := fun e he hx => by
        have := (c e he).1
        unfold Heap.Exists at hx
        omega
      have u1 := pastMatrixLoop1_untouched M _ hn (by omega) (by omega) M.rows 0 _ (by omega) a.2
      generalize newEvents it ((List.range M.cols).map (fun (i : ℕ) => (some (Label.int ((i : ℤ) + 1)), []))) h = r at hn u1 ⊢
      rcases hl : pastMatrixLoop1 M r.1 M.rows 0 r.2 with ⟨x | x, g⟩ <;> rw [hl] at u1
      · exact ⟨u1, fun C e1 => nomatch e1⟩
      · have u2 := pastMatrixLoop2_untouched it r.1 g hn u1
        exact ⟨u2, fun C e1 => u2.causetInit it _ C (fun e he => hn e (List.mem_toFinset.1 he)) e1⟩
  refine ⟨main, fun M => main _, fun rd text p d => ?_⟩
  unfold fromTextFile
  split
  · exact ⟨q.2, fun C e1 => nomatch e1⟩
  · exact ⟨q.2, fun C e1 => nomatch e1⟩
  · split_ifs
    exacts [main _, main _]

/-- C93 on a case that is not trivial: the chain 0 < 1 < 2 with link memory; a matrix with a loop raises ValueError after two events were created, a fence gets the events 3 to 6 -/
example : (((exChain3.link 0).link 1).link 2).Valid ∧
    (fromPastMatrix Iter.asc ⟨2, 2, fun _ _ => true⟩ (((exChain3.link 0).link 1).link 2)).1.toOption = none ∧
    (fromPastMatrix Iter.asc ⟨2, 2, fun _ _ => true⟩ (((exChain3.link 0).link 1).link 2)).2.next = 5 ∧
    (newFence Iter.asc 2 1 false (((exChain3.link 0).link 1).link 2)).1.toOption = some {3, 4, 5, 6} :=
  ⟨(LinkReachable.link _ _ (.link _ _ (.link _ _ exChain3_reach))).reachable.valid, by decide, by decide, by decide⟩

/-! # C94 — calls that raise an exception -/

variable {h : Heap}

/-- **C94, calls that change nothing if they raise:** `unlink` and `disjoin` of an event. -/
theorem C94_unchanged (it : Iter) (lx : h.LinksExact) (e : EId) :
    ((h.unlink e).1 ≠ .ok () → (h.unlink e).2 = h) ∧ ((h.disjoin it e).1 ≠ .ok () → (h.disjoin it e).2 = h) := by
  have hu : (h.unlink e).1 ≠ .ok () → (h.unlink e).2 = h := by
    unfold unlink
    cases h1 : h.lprec e with
    | none => intro _; rfl
    | some s =>
      cases h2 : h.lsucc e with
      | none =>
        have := lx.both e
        rw [h1, h2] at this
        simp at this
      | some t => intro hh; simp [h2] at hh
  refine ⟨hu, ?_⟩
  unfold disjoin
  rcases he : h.unlink e with ⟨_ | _, g⟩
  · intro _
    rw [he] at hu
    exact hu (by simp)
  · intro hh; exact absurd rfl hh

/-- **C94, calls on causets:** whether `link`, `unlink`, `add` and `discard` of a causet raise or not, the order and the labels are as before; the link memory stays right for `unlink`, `add` and `discard`, and
`add` and `discard` change the causet before they raise. -/
theorem C94_order (it : Iter) (C s : Finset EId) (u : Bool) :
    h.SameOrder (causetLink it C h).2 ∧ h.SameOrder (causetUnlink it C h).2 ∧ h.SameOrder (causetAdd it C s u h).2.2 ∧ h.SameOrder (causetDiscard it C s u h).2.2 ∧
    (h.LinksExact → (causetUnlink it C h).2.LinksExact ∧ (causetAdd it C s u h).2.2.LinksExact ∧ (causetDiscard it C s u h).2.2.LinksExact) ∧
    (causetAdd it C s u h).1 = C ∪ s ∧ (causetDiscard it C s u h).1 = C \ s := by
  refine ⟨causetLink_sameOrder it C h, causetUnlink_sameOrder it C h, causetAdd_sameOrder it C s u h, causetDiscard_sameOrder it C s u h, fun lx => ⟨unlinkLinked_linksExact _ _ lx, ?_, ?_⟩, rfl, rfl⟩
  · unfold causetAdd; dsimp only; split
    exacts [unlinkAll_linksExact _ _ lx, lx]
  · unfold causetDiscard; dsimp only; split
    exacts [unlinkAll_linksExact _ _ lx, lx]

/-- **C94 is false for `Causet.link`:** for the causet of 1 and 2 in the chain 0 < 1 < 2 (0 was discarded) it raises AttributeError, and may leave 1 with an incomplete link memory: afterwards `LinkFuture` of 1 is empty
although 2 is the next event. -/
theorem C94_link_refuted : LinkReachable exChain3 ∧ (causetLink Iter.asc {1, 2} exChain3).1.toBool = false ∧
    ((linkFuture 1).run (causetLink Iter.asc {1, 2} exChain3).2).1 = ∅ ∧ Covers (causetLink Iter.asc {1, 2} exChain3).2.Lt 1 2 := by
  refine ⟨exChain3_reach, by decide, by decide, ?_⟩
  have so := causetLink_sameOrder Iter.asc {1, 2} exChain3
  rw [so.Lt]
  have v := exChain3_reach.reachable.valid
  refine ⟨by decide, ?_⟩
  rintro z ⟨h1, h2⟩
  have : z < 3 := (v.exists_of_lt _ _ h1).2
  revert h1 h2
  interval_cases z <;> decide

/-- **C94 is false for `relate`** (and so for `create`): if one event of the causet has been disembedded, it raises AttributeError after the relations of all events were cleared: 0 < 1 is lost. -/
theorem C94_relate_refuted : LinkReachable exChain3 ∧ exChain3.Lt 0 1 ∧
    (relate (fun x y : ℕ => (decide (x < y), decide (y < x))) Iter.desc {0, 1, 2} true ⟨exChain3, fun e => if e = 2 then none else some e⟩).1.toBool = false ∧
    ¬ (relate (fun x y : ℕ => (decide (x < y), decide (y < x))) Iter.desc {0, 1, 2} true ⟨exChain3, fun e => if e = 2 then none else some e⟩).2.heap.Lt 0 1 :=
  ⟨exChain3_reach, by decide, by decide, by decide⟩

end Causets
