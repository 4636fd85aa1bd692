import Verif.Props.Distance
import Verif.Props.Antipaths
import Verif.Props.RankNumbers
import Verif.Props.Paths
import Verif.Props.Components
import Verif.Props.Path
import Verif.Props.MergeExact
import Verif.Props.LinkAny

/-! # C91 — answers do not depend on the iteration order of Python sets -/

namespace Causets

open Heap

variable {h : Heap}

theorem IsRank.unique' {lt : ℕ → ℕ → Prop} {a b : ℕ} {r r' : ℕ∞} (h1 : IsRank lt a b r) (h2 : IsRank lt a b r') : r = r' := by
  rcases h1 with ⟨n1, rfl⟩ | ⟨p1, n, rfl, hn⟩ <;> rcases h2 with ⟨n2, rfl⟩ | ⟨p2, m, rfl, hm⟩
  · rfl
  · exact absurd p2 n1
  · exact absurd p1 n2
  · rw [hn.unique hm]

/-- **C32, ranks of any set.** `Ranks(S, first, last)` for any set of events: an event is found if it is in `S` or its past with a (negative) number in the range up to 0, or in `S` or
its future with a number in the range from 0. -/
theorem C32_ranks_any (it : Iter) (v : h.Valid) (s : Finset EId) (first : ℤ) (last : Option ℤ) :
    h.AnswersWith (ranks it s first last) (fun r => ∃ t, r = .ok t ∧ ∀ x, x ∈ t ↔
      first ≤ last.getD first ∧
      ((first ≤ 0 ∧ (x ∈ s ∨ ∃ b ∈ s, h.Lt x b) ∧ ∃ n, IsRankDown h s x n ∧ first ≤ n ∧ n ≤ min 0 (last.getD first)) ∨
       (0 < last.getD first ∧ (x ∈ s ∨ ∃ a ∈ s, h.Lt a x) ∧ ∃ n, IsRankUp h s x n ∧ max first 0 ≤ n ∧ n ≤ last.getD first))) := by
  unfold ranks
  generalize last.getD first = L
  simp only
  by_cases hempty : s.card = 0
  · rw [Finset.card_eq_zero] at hempty
    subst hempty
    simp only [Finset.card_empty, true_or, if_true]
    exact AnswersWith.pure ⟨∅, rfl, by simp⟩
  by_cases hfl : first > L
  · rw [if_pos (Or.inr hfl)]
    refine AnswersWith.pure ⟨∅, rfl, fun x => ?_⟩
    simp only [Finset.notMem_empty, false_iff, not_and]
    intro h1; omega
  rw [if_neg (by tauto)]
  have down : h.AnswersWith (ranksPast it s first L) (fun r => ∃ t, r = .ok t ∧ ∀ x, x ∈ t ↔
        first ≤ 0 ∧ (x ∈ s ∨ ∃ b ∈ s, h.Lt x b) ∧ ∃ n, IsRankDown h s x n ∧ first ≤ n ∧ n ≤ min 0 L) := by
    unfold ranksPast
    by_cases h0 : first ≤ 0
    · rw [if_pos h0]
      refine AnswersWith.bind AnswersWith.get fun h1 so => ?_
      refine AnswersWith.mono (ranksFilter_spec _ _ (rankDown_spec it v s) (fun e m n => IsRankDown.unique) _ _ _ _) ?_
      rintro _ ⟨t, rfl, ht⟩
      refine ⟨t, rfl, fun x => ?_⟩
      rw [ht, it.mem, C24_pastOf it (so.valid v), so.Lt]
      simp [h0]
    · rw [if_neg h0]
      exact AnswersWith.pure ⟨∅, rfl, by simp [h0]⟩
  refine AnswersWith.bind down ?_
  rintro _ ⟨acc, rfl, hacc⟩
  have hfl' : first ≤ L := by omega
  simp only [hfl', true_and]
  by_cases h0 : L > 0
  · rw [if_pos h0]
    refine AnswersWith.bind AnswersWith.get fun h1 so => ?_
    refine AnswersWith.mono (ranksFilter_spec _ _ (rankUp_spec it v s) (fun e m n => IsRankUp.unique) _ _ _ _) ?_
    rintro _ ⟨t, rfl, ht⟩
    refine ⟨t, rfl, fun x => ?_⟩
    rw [ht, it.mem, C24_futureOf it (so.valid v), so.Lt, hacc]
    simp [h0]
  · rw [if_neg h0]
    refine AnswersWith.pure ⟨acc, rfl, fun x => ?_⟩
    rw [hacc]
    simp [show ¬ 0 < L from h0]

/-- **C91, sets and numbers.** Two runs of the program with different iteration orders (`it`, `it'`: hash seeds, insertion histories) give equal answers to every query that only reads
the order: unions of cones, closure, chains, numbers of infinities, layers, `layered`, distances, antipaths. -/
theorem C91_order_queries (it it' : Iter) (v : h.Valid) (C s : Finset EId) :
    (∀ p i, h.pastOf it s p i = h.pastOf it' s p i ∧ h.futureOf it s p i = h.futureOf it' s p i ∧ h.coneOf it s p i = h.coneOf it' s p i) ∧
    h.spacelikeTo it C s = h.spacelikeTo it' C s ∧
    ((∀ e ∈ s, h.Exists e) → h.causetInit it s = h.causetInit it' s) ∧
    (∀ o, h.isChain it C o = h.isChain it' C o ∧ h.isAntichain it C o = h.isAntichain it' C o) ∧
    (h.pastInfCard it s = h.pastInfCard it' s ∧ h.futureInfCard it s = h.futureInfCard it' s ∧
      h.pastInfCardOf it s = h.pastInfCardOf it' s ∧ h.futureInfCardOf it s = h.futureInfCardOf it' s) ∧
    (∀ first last, h.layers it s first last = h.layers it' s first last) ∧
    (∀ o r, h.layered it C o r = h.layered it' C o r) ∧
    (∀ ac c r, h.distanceMatrix it C ac c r = h.distanceMatrix it' C ac c r) ∧
    (∀ depth a b along D, h.antipaths it C depth a b along D = h.antipaths it' C depth a b along D) := by
  have hl : ∀ s first last, h.layers it s first last = h.layers it' s first last := layers_it it it' v
  have hd := C40_iteration_order it it' v C
  refine ⟨fun p i => ?_, (C24_iteration_independent it it' v C s true).2.2.2, C09_iteration_independent it it' v s, fun o => ?_, ?_, hl s, fun o r => ?_, hd, ?_⟩
  · cases i
    · exact ⟨(C24_iteration_independent it it' v C s p).1, (C24_iteration_independent it it' v C s p).2.1, (C24_iteration_independent it it' v C s p).2.2.1⟩
    · obtain ⟨a1, a2, a3⟩ := C25_refuted it h s p
      obtain ⟨b1, b2, b3⟩ := C25_refuted it' h s p
      exact ⟨a1.trans b1.symm, a2.trans b2.symm, a3.trans b3.symm⟩
  · cases o <;> constructor <;> rw [Bool.eq_iff_iff] <;> simp only [isChain, isAntichain, List.all_eq_true, it.mem, it'.mem]
  · have a := C23_cards it h s
    have b := C23_cards it' h s
    simp only [a, b, and_self]
  · have key : ∀ (s : Finset EId) (step : ℤ) (fuel : ℕ) (layer : Finset EId), h.layeredLoop it s step fuel layer = h.layeredLoop it' s step fuel layer := by
      intro s step fuel
      induction fuel with
      | zero => intro _; rfl
      | succ fuel ih => intro layer; unfold layeredLoop; rw [hl, ih]
    unfold layered
    simp only [key]
  · intro depth a b along D
    unfold antipaths
    cases D with
    | some D => rfl
    | none => simp only [hd]

/-- **C91, components.** `disjoint` returns the same components in some order; `isDisjoint` the same answer. -/
theorem C91_components (it it' : Iter) (v : h.Valid) (C : Finset EId) (o : Option (Finset EId)) :
    (∃ ls ls', h.disjointSets it C o = .ok ls ∧ h.disjointSets it' C o = .ok ls' ∧ ls.Perm ls') ∧
    h.isDisjoint it C o = h.isDisjoint it' C o := by
  have key : ∀ s : Finset EId, ∀ ls ls', ComponentsSpec h.Lt s ls → ComponentsSpec h.Lt s ls' → ∀ l ∈ ls, l ∈ ls' := by
    intro s ls ls' sp sp' l hl
    obtain ⟨x, hx⟩ := sp.nonempty l hl
    obtain ⟨l', hl', hx'⟩ := (sp'.cover x).1 ((sp.cover x).2 ⟨l, hl, hx⟩)
    -- a component contained in a connected set ...
    have sub : ∀ (ks : List (Finset ℕ)), ComponentsSpec h.Lt s ks → ∀ k ∈ ks, ∀ m : Finset ℕ, m ⊆ s → (∀ b ∈ m, Connected h.Lt m x b) → x ∈ k → x ∈ m → m ⊆ k := by
      intro ks spk k hk m hms hm hxk hxm y hy
      have hc := hm y hy
      unfold Connected at hc
      induction hc with
      | refl => exact hxk
      | tail _ st ih =>
        obtain ⟨h1, h2, h3⟩ := st
        have hy1 := ih h1
        obtain ⟨k2, hk2, hy2⟩ := (spk.cover _).1 (hms h2)
        by_cases hkk : k = k2
        · rw [hkk]; exact hy2
        · have hp := spk.unrelated
          rw [List.pairwise_iff_getElem] at hp
          obtain ⟨i, hi, ei⟩ := List.getElem_of_mem hk
          obtain ⟨j, hj, ej⟩ := List.getElem_of_mem hk2
          rcases lt_trichotomy i j with hij | hij | hij
          · exact absurd h3 (hp i j hi hj hij _ (ei ▸ hy1) _ (ej ▸ hy2))
          · subst hij; exact absurd (ei.symm.trans ej) hkk
          · exact absurd h3.symm (hp j i hj hi hij _ (ej ▸ hy2) _ (ei ▸ hy1))
    have e : l = l' := Finset.Subset.antisymm
      (sub ls' sp' l' hl' l (fun y hy => (sp.cover y).2 ⟨l, hl, hy⟩) (sp.connected l hl x hx) hx' hx)
      (sub ls sp l hl l' (fun y hy => (sp'.cover y).2 ⟨l', hl', hy⟩) (sp'.connected l' hl' x hx') hx hx')
    rw [e]; exact hl'
  have nd : ∀ s : Finset EId, ∀ ls, ComponentsSpec h.Lt s ls → ls.Nodup := by
    intro s ls sp
    have := sp.disjoint
    refine List.Pairwise.imp_of_mem (fun {a b} ha _ hab => ?_) this
    rintro rfl
    obtain ⟨x, hx⟩ := sp.nonempty a ha
    exact Finset.disjoint_left.1 hab hx hx
  have main : ∃ ls ls', h.disjointSets it C o = .ok ls ∧ h.disjointSets it' C o = .ok ls' ∧ ls.Perm ls' := by
    have both : ∀ s : Finset EId, ∀ ls ls', ComponentsSpec h.Lt s ls → ComponentsSpec h.Lt s ls' → ls.Perm ls' := fun s ls ls' sp sp' =>
      (List.perm_ext_iff_of_nodup (nd s ls sp) (nd s ls' sp')).2 fun l => ⟨key s ls ls' sp sp' l, key s ls' ls sp' sp l⟩
    cases o with
    | none =>
      obtain ⟨ls, e, sp⟩ := (C35_disjoint it v C ∅).2
      obtain ⟨ls', e', sp'⟩ := (C35_disjoint it' v C ∅).2
      exact ⟨ls, ls', e, e', both C ls ls' sp sp'⟩
    | some s =>
      obtain ⟨ls, e, sp⟩ := (C35_disjoint it v C s).1
      obtain ⟨ls', e', sp'⟩ := (C35_disjoint it' v C s).1
      exact ⟨ls, ls', e, e', both s ls ls' sp sp'⟩
  refine ⟨main, ?_⟩
  obtain ⟨ls, ls', e, e', p⟩ := main
  unfold isDisjoint
  rw [e, e']
  simp only [p.length_eq]

/-- **C91, links.** Every query about links, ranks and paths has one answer, the same for every iteration order and for every state of the link memory (lists of paths are equal up to
the order in which the paths are generated). -/
theorem C91_link_queries (v : h.Valid) (C s : Finset EId) (l : List EId) (a b : EId) :
    (∃ n, ∀ it, h.Answers (linkCountOf it s) n) ∧ (∃ n, ∀ it, h.Answers (linkCount it C none) n) ∧ (∃ n, ∀ it, h.Answers (linkCount it C (some s)) n) ∧
    (∃ r, ∀ it ctx fuel, h.next < fuel → h.Answers (rank it fuel ctx a b) (.ok r)) ∧
    (∀ rev, ∃ ns, ∀ it, h.Answers (rankNumbers it l rev) (.ok ns)) ∧
    (∀ first last, ∃ t, ∀ it, h.Answers (ranks it s first last) (.ok t)) ∧
    (∀ o, ∃ r, ∀ it, h.Answers (isPath it C o) r) ∧
    (∀ arg, (∃ x, ∀ it, h.Answers (paths it a b arg) (.error x)) ∨ ∃ ps, ∀ it, h.AnswersWith (paths it a b arg) (fun r => ∃ qs, r = .ok qs ∧ qs.Perm ps)) := by
  have one : ∀ {α : Type} {Q : α → Prop} {m : Iter → StateM Heap α}, (∀ it, h.AnswersWith (m it) Q) → (∀ x y, Q x → Q y → x = y) → ∃ x, ∀ it, h.Answers (m it) x := by
    intro α Q m hm hu
    by_cases hq : ∃ x, Q x
    · obtain ⟨x, hx⟩ := hq
      exact ⟨x, fun it => (hm it).mono fun y hy => hu y x hy hx⟩
    · have hl : ∀ g, h.SameOrder g → g.LinksExact → False := fun g so lx => hq ⟨_, (hm Iter.asc g so lx).1⟩
      exact ⟨((m Iter.asc).run h).1, fun it g so lx => (hl g so lx).elim⟩
  refine ⟨⟨_, fun it => linkCountOf_answers it v s⟩, ?_, ⟨_, fun it => C38_linkCount_of it v C s⟩, ?_, ?_, ?_, ?_, ?_⟩
  · refine ⟨∑ e ∈ C, (h.pastLinks e).card, fun it => ?_⟩
    unfold linkCount
    refine Answers.bind (x := (it.ord [308] C).map (fun e => (h.pastLinks e).card))
      (Answers.mapM _ (fun e _ => linkPastCard_answers v e)) ?_
    rw [sum_ord]
    exact Answers.pure
  · obtain ⟨r, hr⟩ := IsRank.exists v a b
    refine ⟨r, fun it ctx fuel hf => (C31_rank it v fuel (by omega) (by omega) ctx a b).mono ?_⟩
    rintro _ ⟨k, rfl, hk⟩
    rw [hk.unique' hr]
  · have fu : ∀ {P : EId → ℤ → Prop}, (∀ x m n, P x m → P x n → m = n) → ∀ (L : List EId) (ns ms : List ℤ), List.Forall₂ P L ns → List.Forall₂ P L ms → ns = ms := by
      intro P hP L
      induction L with
      | nil => intro ns ms h1 h2; cases h1; cases h2; rfl
      | cons x xs ih =>
        intro ns ms h1 h2
        cases h1 with | cons p1 q1 => cases h2 with | cons p2 q2 => rw [hP _ _ _ p1 p2, ih _ _ q1 q2]
    have strip : ∀ {P : List ℤ → Prop}, (∀ x y, P x → P y → x = y) → ∀ {m : Iter → StateM Heap (Except Err (List ℤ))}, (∀ it, h.AnswersWith (m it) (fun r => ∃ ns, r = .ok ns ∧ P ns)) →
        ∃ ns, ∀ it, h.Answers (m it) (.ok ns) := by
      intro P hP m hm
      by_cases hq : ∃ ns, P ns
      · obtain ⟨ns, hns⟩ := hq
        exact ⟨ns, fun it => (hm it).mono fun _ ⟨n', e, hn'⟩ => by rw [e, hP _ _ hn' hns]⟩
      · exact ⟨[], fun it g so lx => absurd (let ⟨ns, _, hh⟩ := (hm it g so lx).1; ⟨ns, hh⟩) hq⟩
    rintro (_ | _)
    · exact strip (P := List.Forall₂ (IsRankUp h l.toFinset) l) (fun x y => fu (P := IsRankUp h l.toFinset) (fun _ _ _ => IsRankUp.unique) l x y) fun it => (C32_rankNumbers it v l).1
    · exact strip (P := List.Forall₂ (IsRankDown h l.toFinset) l) (fun x y => fu (P := IsRankDown h l.toFinset) (fun _ _ _ => IsRankDown.unique) l x y) fun it => (C32_rankNumbers it v l).2
  · intro first last
    have hm := fun it => C32_ranks_any it v s first last
    by_cases hq : ∃ g, h.SameOrder g ∧ g.LinksExact
    · obtain ⟨g, so, lx⟩ := hq
      obtain ⟨⟨t, -, ht⟩, -⟩ := hm Iter.asc g so lx
      refine ⟨t, fun it => (hm it).mono ?_⟩
      rintro _ ⟨t', rfl, ht'⟩
      rw [show t' = t from Finset.ext fun x => by rw [ht, ht']]
    · exact ⟨∅, fun it g so lx => absurd ⟨g, so, lx⟩ hq⟩
  · intro o
    cases o with
    | none =>
      refine ⟨decide (C.card ≠ 0) && h.isChain Iter.asc C none, fun it => ?_⟩
      unfold isPath
      by_cases hc : C.card = 0
      · simp only [hc, if_true]; exact Answers.pure
      · simp only [hc, if_false]
        refine AnswersWith.bind AnswersWith.get fun g so => ?_
        refine AnswersWith.pure ?_
        rw [(C91_order_queries it Iter.asc (so.valid v) C ∅).2.2.2.1 none |>.1]
        simp only [isChain, ne_eq, hc, not_false_eq_true, decide_true, Bool.true_and, coneCard, so.prec, so.succ]
        congr!
    | some t =>
      by_cases ht : 2 ≤ t.card
      · exact ⟨_, fun it => C22_isPath_degrees it v C t ht⟩
      · refine ⟨decide (t.card = 1), fun it => ?_⟩
        unfold isPath
        simp only [show t.card ≤ 1 by omega, if_true]
        exact Answers.pure
  · intro arg
    have good : ∀ {P : List EId → Prop}, (∀ it, h.AnswersWith (paths it a b arg) (fun r => ∃ ps : List (List EId), r = .ok ps ∧ ps.Nodup ∧ ∀ q, q ∈ ps ↔ P q)) →
        ∃ ps, ∀ it, h.AnswersWith (paths it a b arg) (fun r => ∃ qs, r = .ok qs ∧ qs.Perm ps) := by
      intro P hm
      by_cases hq : ∃ g, h.SameOrder g ∧ g.LinksExact
      · obtain ⟨g, so, lx⟩ := hq
        obtain ⟨⟨ps, -, hn, hps⟩, -⟩ := hm Iter.asc g so lx
        refine ⟨ps, fun it => (hm it).mono ?_⟩
        rintro _ ⟨qs, rfl, hn', hqs⟩
        exact ⟨qs, rfl, (List.perm_ext_iff_of_nodup hn' hn).2 fun q => by rw [hps, hqs]⟩
      · exact ⟨[], fun it g so lx => absurd ⟨g, so, lx⟩ hq⟩
    by_cases h1 : arg = .str "min"
    · subst h1; exact Or.inr (good fun it => C34_min it v a b)
    by_cases h2 : arg = .str "max"
    · subst h2; exact Or.inr (good fun it => C34_max it v a b _ (Or.inl rfl))
    by_cases h3 : arg = .str "timegeo"
    · subst h3; exact Or.inr (good fun it => C34_max it v a b _ (Or.inr rfl))
    cases hr : arg.range with
    | some r => exact Or.inr (good fun it => C33_paths it v a b arg ⟨h1, h2, h3⟩ r.1 r.2 hr)
    | none =>
      left
      cases arg with
      | other => exact ⟨_, fun it => (C33_errors it a b).1⟩
      | list l =>
        cases l with
        | nil => exact ⟨_, fun it => (C33_errors it a b).2⟩
        | cons x xs => simp [LenArg.range] at hr
      | str s => simp [LenArg.range] at hr
      | int z => simp [LenArg.range] at hr

theorem newEvent_it (it it' : Iter) (v : h.Valid) (l : Option Label) (P F : List EId) (hP : ∀ p ∈ P, h.Exists p) (hF : ∀ f ∈ F, h.Exists f) :
    h.newEvent it l P F = h.newEvent it' l P F := by
  obtain ⟨a0, a1, a2, a3, a4, ⟨a5, a6⟩, a7, a8⟩ := newEvent_fields it h v l P F hP hF
  obtain ⟨b0, b1, b2, b3, b4, ⟨b5, b6⟩, b7, b8⟩ := newEvent_fields it' h v l P F hP hF
  refine Prod.ext (a0.trans b0.symm) ?_
  generalize (h.newEvent it l P F).2 = g at a1 a2 a3 a4 a5 a6 a7 a8
  generalize (h.newEvent it' l P F).2 = g' at b1 b2 b3 b4 b5 b6 b7 b8
  have e1 : g.next = g'.next := a1.trans b1.symm
  have e2 : g.label = g'.label := a2.trans b2.symm
  have e3 : g.prec = g'.prec := funext fun x => (a3 x).trans (b3 x).symm
  have e4 : g.succ = g'.succ := funext fun x => (a4 x).trans (b4 x).symm
  have e5 : g.lprec = g'.lprec := funext fun x => by
    by_cases hx : x = h.next
    · rw [hx, a5, b5]
    · by_cases hc : (x ∈ F.foldl (fun acc x => acc ∪ h.presentOrFuture x) ∅ ∧ h.hasBeenLinked x = true ∧
          (∀ c, ¬ (c ∈ F.foldl (fun acc x => acc ∪ h.presentOrFuture x) ∅ ∧ h.Lt c x)))
      · rw [(a6 x hx).1 hc, (b6 x hx).1 hc]
      · rw [(a6 x hx).2 hc, (b6 x hx).2 hc]
  have e6 : g.lsucc = g'.lsucc := funext fun x => by
    by_cases hx : x = h.next
    · rw [hx, a7, b7]
    · by_cases hc : (x ∈ P.foldl (fun acc x => acc ∪ h.presentOrPast x) ∅ ∧ h.hasBeenLinked x = true ∧
          (∀ c, ¬ (h.Lt x c ∧ c ∈ P.foldl (fun acc x => acc ∪ h.presentOrPast x) ∅)))
      · rw [(a8 x hx).1 hc, (b8 x hx).1 hc]
      · rw [(a8 x hx).2 hc, (b8 x hx).2 hc]
  obtain ⟨n, l1, p, s, lp, ls⟩ := g
  obtain ⟨n', l1', p', s', lp', ls'⟩ := g'
  simp only at e1 e2 e3 e4 e5 e6
  subst e1 e2 e3 e4 e5 e6
  rfl

/-- **C91, changes.** Creating an event leads to the same state (order, labels and link memory) for every iteration order; `disjoin` and `merge` to the same order and labels; a successful `link()`
of a causet to the same state. -/
theorem C91_changes (it it' : Iter) (v : h.Valid) :
    (∀ l P F, (∀ p ∈ P, h.Exists p) → (∀ f ∈ F, h.Exists f) → h.newEvent it l P F = h.newEvent it' l P F) ∧
    (∀ e, (h.disjoin it e).1 = (h.disjoin it' e).1 ∧ (h.hasBeenLinked e = true → (h.disjoin it e).2.SameOrder (h.disjoin it' e).2)) ∧
    (∀ P F, (merge it P F false h).2.SameOrder (merge it' P F false h).2) ∧
    (∀ C, h.LinksExact → (causetLink it C h).1 = (causetLink it' C h).1 ∧ ((causetLink it C h).1 = .ok () → (causetLink it C h).2 = (causetLink it' C h).2)) := by
  refine ⟨fun l P F => newEvent_it it it' v l P F, fun e => ⟨?_, fun hl => ?_⟩, fun P F => ?_, fun C lx => ?_⟩
  · unfold disjoin
    rcases h.unlink e with ⟨_ | _, _⟩ <;> rfl
  · obtain ⟨-, a1, a2, a3, a4⟩ := disjoin_fields it h v e hl
    obtain ⟨-, b1, b2, b3, b4⟩ := disjoin_fields it' h v e hl
    exact ⟨b1.trans a1.symm, b2.trans a2.symm, funext fun x => Finset.ext fun y => by rw [a3, b3], funext fun x => Finset.ext fun y => by rw [a4, b4]⟩
  · obtain ⟨a1, a2, a3, a4⟩ := merge_fields it P F h
    obtain ⟨b1, b2, b3, b4⟩ := merge_fields it' P F h
    exact ⟨b1.trans a1.symm, b2.trans a2.symm, funext fun x => Finset.ext fun y => by rw [a3, b3], funext fun x => Finset.ext fun y => by rw [a4, b4]⟩
  · obtain ⟨a1, a2⟩ := C38_outcome it v lx C
    obtain ⟨b1, b2⟩ := C38_outcome it' v lx C
    have e1 : (causetLink it C h).1 = (causetLink it' C h).1 := by
      by_cases hc : ∀ b ∈ C, ∀ a, Covers h.Lt a b → a ∈ C ∨ h.hasBeenLinked a = true
      · rw [a1.2 hc, b1.2 hc]
      · rw [a2 fun hh => hc (a1.1 hh), b2 fun hh => hc (b1.1 hh)]
    refine ⟨e1, fun hok => ?_⟩
    obtain ⟨s, m, o, -⟩ := C38_any it v lx C hok
    obtain ⟨s', m', o', -⟩ := C38_any it' v lx C (e1 ▸ hok)
    have f1 : (causetLink it C h).2.lprec = (causetLink it' C h).2.lprec := funext fun x => by
      by_cases hx : x ∈ C
      · obtain ⟨p, q, h1, -, h3, -⟩ := m x hx
        obtain ⟨p', q', h1', -, h3', -⟩ := m' x hx
        rw [h1, h1', show p = p' from Finset.ext fun y => by rw [h3, h3']]
      · rw [(o x hx).1, (o' x hx).1]
    have f2 : (causetLink it C h).2.lsucc = (causetLink it' C h).2.lsucc := funext fun x => by
      by_cases hx : x ∈ C
      · obtain ⟨p, q, -, h2, -, h4⟩ := m x hx
        obtain ⟨p', q', -, h2', -, h4'⟩ := m' x hx
        rw [h2, h2', show q = q' from Finset.ext fun y => by rw [h4, h4']]
      · rw [(o x hx).2, (o' x hx).2]
    have t := s.symm.trans s'
    generalize (causetLink it C h).2 = g at f1 f2 t
    generalize (causetLink it' C h).2 = g' at f1 f2 t
    obtain ⟨n, l1, p, s, lp, ls⟩ := g
    obtain ⟨n', l1', p', s', lp', ls'⟩ := g'
    obtain ⟨t1, t2, t3, t4⟩ := t
    simp only at t1 t2 t3 t4 f1 f2
    subst t1 t2 t3 t4 f1 f2
    rfl

/-- the 6-crown: bottom events 0, 2, 3, top events 1, 4, 5 -/
def exCrown6 : Heap :=
  let g1 := (Heap.empty.newEvent Iter.asc none [] []).2
  let g2 := (g1.newEvent Iter.asc none [] []).2
  let g3 := (g2.newEvent Iter.asc none [] [1]).2
  let g4 := (g3.newEvent Iter.asc none [] [1]).2
  let g5 := (g4.newEvent Iter.asc none [0, 3] []).2
  (g5.newEvent Iter.asc none [0, 2] []).2

/-- **C91 is false for `CentralAntichain`:** already the number of its events depends on the iteration order, in the crown of six events. -/
theorem C91_central_refuted : Reachable exCrown6 ∧
    (exCrown6.centralAntichain Iter.asc {0, 1, 2, 3, 4, 5} none).card = 2 ∧ (exCrown6.centralAntichain Iter.desc {0, 1, 2, 3, 4, 5} none).card = 3 := by
  refine ⟨?_, by decide, by decide⟩
  refine .new _ _ _ _ _ (.new _ _ _ _ _ (.new _ _ _ _ _ (.new _ _ _ _ _ (.new _ _ _ _ _ (.new _ _ _ _ _ .start ?_ ?_ ?_) ?_ ?_ ?_) ?_ ?_ ?_) ?_ ?_ ?_) ?_ ?_ ?_) ?_ ?_ ?_ <;>
    simp [Heap.Exists] <;> decide

/-- **C91 is false for link queries after `disjoin`:** in the chain 0 < 1 < 2 with link memory, `LinkPast` of 2 after disjoining 1 holds 0 or nothing, depending on the iteration order. -/
theorem C91_disjoin_refuted : LinkReachable (((exChain3.link 0).link 1).link 2) ∧
    ((linkPast 2).run ((((exChain3.link 0).link 1).link 2).disjoin Iter.asc 1).2).1 ≠
      ((linkPast 2).run ((((exChain3.link 0).link 1).link 2).disjoin Iter.desc 1).2).1 :=
  ⟨.link _ _ (.link _ _ (.link _ _ exChain3_reach)), by decide⟩

/-- C91 on a causet that is not trivial: both orders give the same two components of 0 < 1 and 2, in different order -/
example : exChain2And1.Valid ∧ (exChain2And1.disjointSets Iter.asc {0, 1, 2} none).toOption = some [{0, 1}, {2}] ∧
    (exChain2And1.disjointSets Iter.desc {0, 1, 2} none).toOption = some [{2}, {0, 1}] :=
  ⟨exChain2And1_reach.reachable.valid, by decide, by decide⟩

end Causets
